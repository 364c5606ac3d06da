import Verif.Model.MaccorQuantity
/-
Specification vocabulary for the accumulated Maccor quantities.
-/
namespace Beep.Spec.Maccor
open Beep.Maccor

/-- the running value of the current step in row `i`: the waveform value when the file has
waveforms and the row has one, otherwise the recorded quantity if the row is in the
requested state and 0 if it is not -/
def running (rows : List Row) (i : Nat) : Rat :=
  match rows[i]? with
  | none => 0
  | some r => match r.wf with
    | some w => if ∃ x ∈ rows, x.wfChgCap ≠ none then w else if r.inState then r.quantity else 0
    | none => if r.inState then r.quantity else 0

/-- row `i` completes a step: it carries an ending status and the next row belongs to
another step -/
def Completes (rows : List Row) (i : Nat) : Prop :=
  ∃ a b, rows[i]? = some a ∧ rows[i + 1]? = some b ∧ a.endStatus = true ∧ a.step ≠ b.step

instance (rows : List Row) (i : Nat) : Decidable (Completes rows i) :=
  match ha : rows[i]?, hb : rows[i + 1]? with
  | some a, some b => if h : a.endStatus = true ∧ a.step ≠ b.step then
      isTrue ⟨a, b, ha, hb, h.1, h.2⟩
    else isFalse (by rintro ⟨x, y, h1, h2, h3⟩; rw [ha] at h1; rw [hb] at h2; cases h1; cases h2; exact h h3)
  | none, _ => isFalse (by rintro ⟨x, y, h1, _⟩; rw [ha] at h1; cases h1)
  | some _, none => isFalse (by rintro ⟨x, y, _, h2, _⟩; rw [hb] at h2; cases h2)

/-- sum, over the steps of cycle `c` completed before row `i`, of their final value -/
def completedBefore (rows : List Row) (c : Int) : Nat → Rat
  | 0 => 0
  | i + 1 => completedBefore rows c i +
    (if Completes rows i ∧ (rows[i]?).map Row.cycle = some c then running rows i else 0)

end Beep.Spec.Maccor
