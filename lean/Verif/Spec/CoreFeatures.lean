import Verif.Model.CoreFeatures
import Verif.Spec.Stats
import Mathlib.Data.Finset.Card
import Mathlib.Data.Finset.Dedup
/-
Specification vocabulary for the features of cycle comparisons.
-/
namespace Beep.Spec.CoreFeatures
open Beep.CoreFeatures

/-- `z` is `x - y`, missing if one of them is -/
def Minus (x y z : Option Rat) : Prop :=
  (∀ a b, x = some a → y = some b → z = some (a - b)) ∧ (x = none ∨ y = none → z = none)

/-- `d` is the point by point difference of two curves with the same number of points -/
def Difference (later earlier d : List (Option Rat)) : Prop :=
  later.length = earlier.length ∧ d.length = later.length ∧
  ∀ (i : Nat) x y z, later[i]? = some x → earlier[i]? = some y → d[i]? = some z → Minus x y z

/-- the statistics in the order of the documentation -/
def statistics : List String := ["var", "min", "mean", "skew", "kurtosis", "abs", "square"]

/-- the logarithm of a statistic of the values that are present -/
def logOf (stat : String) (d : List (Option Rat)) : Val := .log stat ((Stats.present d).map some)

/-- a column of the rows of one cycle and step type -/
def values (rows : List IRow) (c : Int) (st : String) (col : IRow → Option Rat) : List (Option Rat) :=
  (rows.filter (fun r => decide (r.cycle = c ∧ r.stepType = st))).map col

/-- what the quantities of `CycleSummaryStats` mean: name, direction, column -/
def quantities : List (String × String × (IRow → Option Rat)) :=
  [("charging_capacity", "charge", IRow.chgCap), ("discharging_capacity", "discharge", IRow.dchgCap),
   ("charging_energy", "charge", IRow.chgEn), ("discharging_energy", "discharge", IRow.dchgEn)]

/-- what the columns of `CycleSummaryStats` should be: the statistic of the name, of the
difference of the quantity of the name in its direction -/
def Labelled (qs : List (String × String × (IRow → Option Rat))) (stats : List String) (c0 c1 : Int)
    (rows : List IRow) (f : Dict String Val) : Prop :=
  ∀ q ∈ qs, ∀ s ∈ stats, ∀ d, Difference (values rows c1 q.2.1 q.2.2) (values rows c0 q.2.1 q.2.2) d →
    f.get? (s ++ "_" ++ q.1) = some (logOf s d)

/-- a column of the rows of one cycle and step -/
def valuesD (rows : List DRow) (c s : Int) (col : DRow → Option Rat) : List (Option Rat) :=
  (rows.filter (fun r => decide (r.cycle = c ∧ r.step = s))).map col

/-- the `k`-th cycle of a type, in the order of first appearance -/
def IsNthCycle (rows : List DRow) (type : String) (k : Nat) (c : Int) : Prop :=
  ∃ pre r post, rows = pre ++ r :: post ∧ r.cycleType = type ∧ r.cycle = c ∧
    (∀ q ∈ pre, DRow.cycleType q = type → DRow.cycle q ≠ c) ∧
    ((pre.filter (fun q : DRow => q.cycleType = type)).map DRow.cycle).toFinset.card = k

/-- what the quantities of `DiagnosticSummaryStats` mean: name, whether the charge step, column -/
def quantitiesD : List (String × Bool × (DRow → Option Rat)) :=
  [("charging_capacity", true, DRow.chgCap), ("discharging_capacity", false, DRow.dchgCap),
   ("charging_energy", true, DRow.chgEn), ("discharging_energy", false, DRow.dchgEn),
   ("charging_dQdV", true, DRow.chgDqdv), ("discharging_dQdV", false, DRow.dchgDqdv)]

/-- the metrics of the diagnostic summary -/
def metricsD : List (String × (SRow → Rat)) :=
  [("discharge_capacity", SRow.dchgCap), ("discharge_energy", SRow.dchgEn), ("charge_capacity", SRow.chgCap),
   ("charge_energy", SRow.chgEn)]

/-- the sum of the squared distances of points from a line -/
def squares (pts : List (Rat × Rat)) (m b : Rat) : Rat :=
  (pts.map (fun p => (p.2 - (m * p.1 + b)) * (p.2 - (m * p.1 + b)))).sum

/-- the line fits the points best in the sense of least squares, and no other line does as well -/
def BestLine (pts : List (Rat × Rat)) (m b : Rat) : Prop :=
  ∀ m' b', squares pts m b ≤ squares pts m' b' ∧ (squares pts m' b' ≤ squares pts m b → m' = m ∧ b' = b)

end Beep.Spec.CoreFeatures
