import Mathlib.Data.List.Forall2
import Verif.Model.StepRoles
import Verif.Spec.Stats
import Verif.Spec.Rounding
/-
What the roles of the steps of a diagnostic cycle mean: C59.
-/
namespace Beep.Spec.StepRoles
open Beep Pandas StepRoles Spec.Stats

/-- the measured quantities of a step -/
structure Facts where
  /-- median and mean current as C-rate, two decimals -/
  median : Rat
  mean : Rat
  /-- median duration of an occurrence in seconds -/
  duration : Rat
  /-- the cycle ends with this step -/
  last : Prop
  /-- the step occurs more than once -/
  repeats : Prop

/-- a pulse: at least C/2 for less than two minutes -/
def Facts.Pulse (f : Facts) : Prop := 1 / 2 ≤ absR f.median ∧ f.duration < 120

/-- when a step has a role -/
def Facts.Fits (f : Facts) : Role → Prop
  | .longRest => f.median = 0 ∧ 600 < f.duration
  | .shortRest => f.median = 0 ∧ 0 < f.duration ∧ f.duration ≤ 600
  | .dischargePulse => f.median < 0 ∧ f.Pulse
  | .chargePulse => 0 < f.median ∧ f.Pulse
  | .finalDischarge => f.median < 0 ∧ ¬ f.Pulse ∧ f.last ∧ ¬ f.repeats
  | .dischargeToNextSoc => f.median < 0 ∧ ¬ f.Pulse ∧ ¬ (f.last ∧ ¬ f.repeats) ∧ f.mean = f.median ∧
      5 / 100 < absR (f.mean * f.duration / 3600)
  | .chargeToSoc => 0 < f.median ∧ 120 < f.duration
  | .charge => False
  | .discharge => False

/-- the rows of a step -/
def stepRows (cycle : List Row) (s : Int) : List Row := cycle.filter (fun r => r.step = s)

/-- the measured currents -/
def currents (rows : List Row) : List Rat := present (rows.map Row.current)

/-- `d` is the time from the first to the last row of occurrence `k` of a step -/
def IsSpan (rows : List Row) (k : Int) (d : Rat) : Prop :=
  ∃ a ∈ rows, ∃ b ∈ rows, a.counter = k ∧ b.counter = k ∧
    (∀ r ∈ rows, r.counter = k → a.time ≤ r.time ∧ r.time ≤ b.time) ∧ d = b.time - a.time

/-- `t` is the median duration of the occurrences of a step, in whole seconds -/
def IsDuration (rows : List Row) (t : Rat) : Prop :=
  ∃ (ks : List Int) (ds : List Rat) (d : Rat), ks.Nodup ∧ (∀ k, k ∈ ks ↔ ∃ r ∈ rows, r.counter = k) ∧
    List.Forall₂ (IsSpan rows) ks ds ∧ IsMedian ds d ∧ ∃ n : Int, Rounds d n ∧ t = n

/-- the facts of a step of a cycle -/
def IsFacts (cap : Rat) (cycle : List Row) (s : Int) (f : Facts) : Prop :=
  (∃ x, IsMedian (currents (stepRows cycle s)) x ∧ TwoDecimals (x / cap) f.median) ∧
  (∃ x, IsMean (currents (stepRows cycle s)) x ∧ TwoDecimals (x / cap) f.mean) ∧
  IsDuration (stepRows cycle s) f.duration ∧
  (f.last ↔ ∀ r ∈ cycle, ∃ q ∈ stepRows cycle s, r.time ≤ q.time) ∧
  (f.repeats ↔ ∃ r ∈ stepRows cycle s, ∃ q ∈ stepRows cycle s, r.counter ≠ q.counter)

/-- the role of a step -/
def HasRole (cycleType : Str) (cap : Rat) (cycle : List Row) (s : Int) (r : Role) : Prop :=
  if cycleType = "hppc".toList then ∃ f, IsFacts cap cycle s f ∧ f.Fits r
  else ∃ x m, IsMedian (currents (stepRows cycle s)) x ∧ TwoDecimals (x / cap) m ∧
    match r with
    | .charge => 0 < m
    | .discharge => m < 0
    | _ => False

/-- `cycle` is the diagnostic cycle of the given type at position `pos` among those of that type;
negative positions count from the end -/
def IsChosen (data : List Row) (cycleType : Str) (pos : Int) (cycle : List Row) : Prop :=
  ∃ k, (if 0 ≤ pos then (unique ((data.filter (fun r => r.cycleType = cycleType)).map Row.cycle))[pos.toNat]?
        else (unique ((data.filter (fun r => r.cycleType = cycleType)).map Row.cycle)).reverse[(-pos - 1).toNat]?) =
      some k ∧
    cycle = data.filter (fun r => r.cycleType = cycleType ∧ r.cycle = k)

/-- the diagnostic cycle types -/
def Known (cycleType : Str) : Prop :=
  cycleType ∈ ["hppc".toList, "rpt_0.2C".toList, "rpt_1C".toList, "rpt_2C".toList, "reset".toList]

end Beep.Spec.StepRoles
