import Verif.Model.MaccorRun
/-
Specification vocabulary for what a Maccor cycle charged and discharged (C159).
-/
namespace Beep.Spec.MaccorRun
open Beep Beep.MaccorRun

/-- some record of the file comes from a waveform -/
def HasWaveform (file : List Rec) : Prop := ∃ r ∈ file, r.wfChgCap ≠ none

instance (file : List Rec) : Decidable (HasWaveform file) := by unfold HasWaveform; infer_instance

/-- what the machine reports in a record for a quantity, counted from the start of the step: the counter of the waveform
if there is one, otherwise the counter of the step if the cell is being charged (or discharged) and 0 if not -/
def reading (file : List Rec) : Kind → Rec → Rat
  | .chgCap, r => if HasWaveform file ∧ r.wfChgCap ≠ none then r.wfChgCap.getD 0 else if r.state = 'C' then r.capacity else 0
  | .dchgCap, r => if HasWaveform file ∧ r.wfDisCap ≠ none then r.wfDisCap.getD 0 else if r.state = 'D' then r.capacity else 0
  | .chgEn, r => if HasWaveform file ∧ r.wfChgE ≠ none then r.wfChgE.getD 0 else if r.state = 'C' then r.energy else 0
  | .dchgEn, r => if HasWaveform file ∧ r.wfDisE ≠ none then r.wfDisE.getD 0 else if r.state = 'D' then r.energy else 0

/-- the sum, over the steps of cycle `c`, of a value at the last record of the step -/
def total (f : Rec → Rat) (c : Int) : List Rec → Rat
  | [] => 0
  | [r] => if r.cycle = c then f r else 0
  | a :: b :: rest => (if a.step ≠ b.step ∧ a.cycle = c then f a else 0) + total f c (b :: rest)

/-- neighbouring records -/
def Next (file : List Rec) (a b : Rec) : Prop := ∃ i : Nat, file[i]? = some a ∧ file[i + 1]? = some b

/-- a file as the machine writes it: cycles count upwards and begin with a step; the last record of a step has an ending
status; the counters begin at zero or above and do not fall within a step -/
structure Ordinary (file : List Rec) : Prop where
  up : ∀ a b, Next file a b → a.cycle ≤ b.cycle
  begins : ∀ a b, Next file a b → a.cycle ≠ b.cycle → a.step ≠ b.step
  status : ∀ a b, Next file a b → a.step ≠ b.step → 128 ≤ a.es ∧ a.es ≤ 255
  positive : ∀ k, ∀ r ∈ file, 0 ≤ reading file k r
  counter : ∀ k a b, Next file a b → a.step = b.step → reading file k a ≤ reading file k b

/-- a step of the cycle has ended, or there is no other cycle -/
def UnderWay (file : List Rec) (c : Int) : Prop :=
  (∃ a b, Next file a b ∧ a.cycle = c ∧ a.step ≠ b.step) ∨ ∀ r ∈ file, r.cycle = c

end Beep.Spec.MaccorRun
