import Verif.Model.Waveform
import Mathlib.Data.List.Forall2
/-
Vocabulary for the properties of waveform files (C38, C39).
-/
namespace Beep.Spec.Waveform
open Beep Pandas Waveform

/-- what the file prescribes second by second: state and value -/
def expand (ls : List Line) : List (Str × Option Rat) :=
  ls.flatMap (fun l => List.replicate l.duration (l.state, l.value))

/-- `(state, v)` prescribes the power `y`: charge iff positive, the magnitude to five decimals -/
def Prescribes (y : Rat) (o : Str × Option Rat) : Prop :=
  (o.1 = "C".toList ∧ 0 < y ∨ o.1 = "D".toList ∧ y ≤ 0) ∧
  ∃ v : Rat, o.2 = some v ∧ v - absR y ≤ 1 / 200000 ∧ absR y - v ≤ 1 / 200000

/-- `m` is the largest magnitude in the waveform -/
def Peak (xs : List Rat) (m : Rat) : Prop := (∃ x ∈ xs, absR x = m) ∧ ∀ x ∈ xs, absR x ≤ m

/-- each element differs from the next -/
def Alternates {α : Type} (l : List α) : Prop :=
  ∀ (i : Nat) (a b : α), l[i]? = some a → l[i + 1]? = some b → a ≠ b

end Beep.Spec.Waveform
