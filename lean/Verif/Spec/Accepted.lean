import Verif.Spec.Inserted
/-
Vocabulary for C69: what the insert functions need to find in a Maccor template.
-/
namespace Beep.Spec.Accepted
open Beep MaccorProcedure

/-- step `i` has the type `ty` -/
def IsKind (p : List Step) (i : Nat) (ty : String) : Prop :=
  ∃ s, p[i]? = some s ∧ s.stepType = ty.toList

/-- step `i` has the type `ty` and the control mode `mode` -/
def IsStep (p : List Step) (i : Nat) (ty mode : String) : Prop :=
  ∃ s, p[i]? = some s ∧ s.stepType = ty.toList ∧ s.stepMode = some mode.toList

/-- `e` is the only end entry of the step, or number `k` of its list of end entries -/
def EndEntry (s : Step) : Sel → EndE → Prop
  | .one, e => s.ends = some (.one e)
  | .nth k, e => ∃ es, s.ends = some (.many es) ∧ es[k]? = some e

/-- the end entry `k` of step `i` is a condition on `ty` -/
def EndOn (p : List Step) (i : Nat) (k : Sel) (ty : String) : Prop :=
  ∃ s e, p[i]? = some s ∧ EndEntry s k e ∧ e.endType = ty.toList

/-- step `i` has limits -/
def HasLimits (p : List Step) (i : Nat) : Prop := ∃ s l, p[i]? = some s ∧ s.limits = some l

/-- the threshold of the end entry `k` of step `i` is not `v` -/
def Differs (p : List Step) (i : Nat) (k : Sel) (v : Val) : Prop :=
  ∃ s e, p[i]? = some s ∧ EndEntry s k e ∧ e.value ≠ v

/-- a rest that ends on its step time -/
def Resting (p : List Step) (i : Nat) : Prop := IsKind p i "Rest" ∧ EndOn p i (.nth 0) "StepTime"

/-- step `i` is a loop; loop 1 and loop 2 have the loop count as their only end entry -/
def Looping (p : List Step) (i : Nat) : Prop :=
  ∃ s, p[i]? = some s ∧ s.stepType.take 4 = "Loop".toList ∧
    (s.stepType = "Loop 1".toList ∨ s.stepType = "Loop 2".toList →
      ∃ e, s.ends = some (.one e) ∧ e.endType = "Loop Cnt".toList)

/-- what the charge of a regular cycle needs -/
def FitsCharge (p : List Step) (i : Nat) : Prop :=
  IsStep p i "Charge" "Current" ∧ EndOn p i (.nth 0) "StepTime" ∧
  IsStep p (i + 1) "Charge" "Current" ∧ EndOn p (i + 1) (.nth 0) "Voltage" ∧
  IsStep p (i + 2) "Charge" "Voltage" ∧ EndOn p (i + 2) (.nth 0) "StepTime" ∧ Resting p (i + 3)

/-- version 3 also wants a threshold other than 4.4 in the second end entry of the first step -/
def FitsChargeV3 (p : List Step) (i : Nat) : Prop :=
  FitsCharge p i ∧ Differs p i (.nth 1) (.num (44 / 10))

/-- what the discharge of a regular cycle needs -/
def FitsDischarge (p : List Step) (i : Nat) : Prop :=
  IsStep p i "Dischrge" "Current" ∧ EndOn p i (.nth 0) "Voltage" ∧ Resting p (i + 1) ∧ Looping p (i + 3)

/-- what the storage charge needs -/
def FitsStorage (k : Sel) (p : List Step) (i : Nat) : Prop :=
  IsStep p i "Dischrge" "Current" ∧ HasLimits p i ∧ EndOn p i k "Current" ∧
  IsStep p (i + 1) "Charge" "Current" ∧ EndOn p (i + 1) (.nth 0) "StepTime"

/-- what the reset cycle needs, and each pair of the rate performance test -/
def FitsPair (p : List Step) (i : Nat) : Prop :=
  IsStep p i "Charge" "Current" ∧ HasLimits p i ∧ EndOn p i (.nth 0) "Current" ∧
  IsStep p (i + 1) "Dischrge" "Current" ∧ EndOn p (i + 1) (.nth 0) "Voltage"

/-- a step of the pulse power cycle that ends on its time or a voltage -/
def FitsPulse (p : List Step) (i : Nat) (ty : String) : Prop :=
  IsStep p i ty "Current" ∧ EndOn p i (.nth 0) "StepTime" ∧ EndOn p i (.nth 1) "Voltage"

/-- what the pulse power cycle needs -/
def FitsHppc (p : List Step) (i : Nat) : Prop :=
  (IsStep p i "Charge" "Current" ∧ HasLimits p i ∧ EndOn p i (.nth 0) "Current") ∧ Resting p (i + 2) ∧
  FitsPulse p (i + 3) "Dischrge" ∧ Resting p (i + 4) ∧ FitsPulse p (i + 5) "Charge" ∧
  FitsPulse p (i + 6) "Dischrge" ∧
  IsStep p (i + 8) "Dischrge" "Voltage" ∧ HasLimits p (i + 8) ∧ EndOn p (i + 8) (.nth 0) "Current"

/-- what the rate performance test needs -/
def FitsRpt (p : List Step) (i : Nat) : Prop := FitsPair p i ∧ FitsPair p (i + 3) ∧ FitsPair p (i + 6)

/-- what one diagnostic needs -/
def FitsDiagnostic (p : List Step) (reset hppc rpt : Nat) : Prop :=
  FitsPair p reset ∧ FitsHppc p hppc ∧ FitsRpt p rpt

end Beep.Spec.Accepted
