import Verif.Model.RoundTrip
import Mathlib.Data.List.Forall2
import Verif.Spec.Units
/-
Specification vocabulary: when a Maccor step of a converted procedure asks for the same as a step
of the original procedure.
-/
namespace Beep.Spec.RoundTrip
open Beep Beep.Units Beep.Spec.Units

/-- the text with spaces around it -/
def Padded (a b : String) : Prop :=
  ∃ n m : Nat, a = String.ofList (List.replicate n ' ' ++ b.toList ++ List.replicate m ' ')

/-- the value denotes the same number or the same duration -/
def SameValue : MtB.Val → BtM.MVal → Prop
  | .num d, .num x => x = d.value
  | .time t, .time u => seconds u = seconds t
  | _, _ => False

/-- the end entry waits for the same and continues at the same step -/
structure SameEnd (e : MtB.EndEntry) (f : BtM.MEnd) : Prop where
  type : Padded f.endType e.endType
  oper : Padded f.oper e.oper
  value : SameValue e.value f.value
  step : (f.step : Int) = e.step

/-- the report entry records the same -/
structure SameReport (r : MtB.Report) (p : String × BtM.MVal) : Prop where
  type : Padded p.1 r.reportType
  value : SameValue r.value p.2

/-- the step drives the cell alike, ends alike and records alike -/
structure SameStep (s : MtB.Step) (t : BtM.MStep) : Prop where
  type : Padded t.stepType s.stepType
  mode : s.stepType ≠ "Rest" → Padded t.stepMode s.stepMode
  value : s.stepType ≠ "Rest" → ∃ d, s.stepValue = some (.num d) ∧ t.value = some d.value
  ends : List.Forall₂ SameEnd s.ends.toList t.ends
  reports : List.Forall₂ SameReport s.reports.toList t.reports

/-- a number with as many decimals as both formats hold (`k` of them), or a time in whole hours,
whole minutes and hundredths of a second -/
def Fine (k : Int) : MtB.Val → Prop
  | .num d => d.sigFigs ≤ k
  | .time t => (∃ h m : Int, t.h = h ∧ t.m = m) ∧ Decimals t.s 2
  | .text _ => True

/-- decimals that a quantity may have: microvolts for voltages, femtoamperes for currents -/
def decimals (quantity : String) : Int := if quantity = "Voltage" then 6 else 15

/-- a charge, discharge or rest step without a limit that splits it -/
def Measures (s : MtB.Step) : Prop :=
  (s.stepType = "Charge" ∨ s.stepType = "Dischrge" ∨ s.stepType = "Rest") ∧ s.limits = none

/-- the step has only values that both formats hold -/
def FineStep (s : MtB.Step) : Prop :=
  (∀ v, s.stepValue = some v → Fine (decimals s.stepMode) v) ∧
  (∀ e ∈ s.ends.toList, Fine (decimals e.endType) e.value) ∧
  (∀ r ∈ s.reports.toList, Fine (decimals r.reportType) r.value)

end Beep.Spec.RoundTrip
