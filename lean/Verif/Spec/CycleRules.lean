import Verif.Model.CycleRules
/-
Specification vocabulary for Biologic cycle numbers.
-/
namespace Beep.Spec.CycleRules
open Beep Beep.CycleRules

/-- the advance from one record (seq, loop) to the next, read off the rules: the loop
advance if the loop counter changed, else the advance listed for the sequence transition if
the sequence changed, else 0 -/
def advance (r : Rules) (a b : Int × Int) : Int :=
  if a.2 ≠ b.2 then r.onTechLoop
  else if a.1 ≠ b.1 then
    match r.seqTransitions.find? (fun p => p.1 = (a.1, b.1)) with
    | some p => p.2
    | none => 0
  else 0

/-- the numbers stored in the rules are those of `r`; `raw` is the untyped result of reading
a file -/
def Same (raw : RawRules) (r : Rules) : Prop :=
  raw.techNum = .num r.techNum ∧ raw.doesLoop = .bool r.doesLoop ∧ raw.onStart = .num r.onStart ∧
  raw.onTechLoop = .num r.onTechLoop ∧
  raw.seqTransitions = r.seqTransitions.map (fun p => ((.num p.1.1, .num p.1.2), .num p.2)) ∧
  raw.stepTransitions = r.stepTransitions.map (fun p => ((.num p.1.1, .num p.1.2), .num p.2))

end Beep.Spec.CycleRules
