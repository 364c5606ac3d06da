import Verif.Model.RawImage
import Verif.Spec.Hppc
/-
Specification vocabulary for images of interpolated diagnostic data.
-/
namespace Beep.Spec.RawImage
open Beep.RawImage

/-- the rows of a cycle of a type, by its position among the cycles of the type -/
def IsCycle (df : List Row) (type : String) (pos : Nat) (rows : List Row) : Prop :=
  ∃ c, Hppc.IsNth ((df.filter (fun r => r.cycleType = type)).map Row.cycle) pos c ∧
    rows = df.filter (fun r => r.cycleType = type ∧ r.cycle = c)

/-- the rows of the `i`-th step of a cycle -/
def IsStep (cycle : List Row) (i : Nat) (rows : List Row) : Prop :=
  ∃ s, Hppc.IsNth (cycle.map Row.step) i s ∧ rows = cycle.filter (fun r => r.step = s)

/-- a cycle of two steps -/
def TwoSteps (cycle : List Row) : Prop := (cycle.map Row.step).toFinset.card = 2

/-- `y` is `s` with missing values replaced by the last one before, or by the first one if there is none before -/
def Filled (s y : List (Option Rat)) : Prop :=
  y.length = s.length ∧ ∀ k, k < s.length → ∃ j v, s[j]? = some (some v) ∧ y[k]? = some (some v) ∧
    ((j ≤ k ∧ ∀ i, j < i → i ≤ k → s[i]? = some none) ∨ (k < j ∧ ∀ i, i < j → s[i]? = some none))

/-- the columns a metric is computed from -/
def needed (metric : String) : List String :=
  if metric ∈ ["capacity", "energy", "dQdV"] then ["charge_" ++ metric, "discharge_" ++ metric] else [metric]

/-- `x` is the least of a column's values -/
def IsLeast (col : List (Option Rat)) (x : Rat) : Prop := some x ∈ col ∧ ∀ v, some v ∈ col → x ≤ v

end Beep.Spec.RawImage
