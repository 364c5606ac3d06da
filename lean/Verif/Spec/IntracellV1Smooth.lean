import Verif.Spec.IntracellSlopes
import Verif.Spec.Intracell
/-
Specification vocabulary for the smoothed derivatives of version 1 of the intracell analysis.
-/
namespace Beep.Spec.IntracellV1Smooth
open Beep.Spec.Intracell Beep.Spec.IntracellSlopes

/-- the sum of `f 0, …, f k`, each times `1 - a` once for every later index -/
def weighed (a : Rat) (f : Nat → Rat) (k : Nat) : Rat := ((List.range (k + 1)).map (fun j => f j * (1 - a) ^ (k - j))).sum

/-- `m` is the exponentially weighted mean, with the weight `a` of the latest value, of the values up to index `i`, missing
ones left out; a missing value has the mean of the latest index with a value, and no mean if there is none -/
def SmoothedBy (a : Rat) (g : List (Option Rat)) (i : Nat) (m : Option Rat) : Prop :=
  (m = none ∧ ∀ j, j ≤ i → g[j]? = some none) ∨
  ∃ k v x, k ≤ i ∧ g[k]? = some (some v) ∧ (∀ j, k < j → j ≤ i → g[j]? = some none) ∧ m = some x ∧
    0 < weighed a (indicator g) k ∧ x * weighed a (indicator g) k = weighed a (valueOr0 g) k

/-- `d` are the slopes of rows, smoothed with the weight `a` -/
def SmoothedSlopesBy (a : Rat) (rows : List (Option Rat × Option Rat)) (d : List (Option Rat)) : Prop :=
  ∃ g : List (Option Rat), g.length = rows.length ∧ d.length = rows.length ∧
    ∀ i, i < rows.length → ∃ s m, g[i]? = some s ∧ d[i]? = some m ∧ SlopeAt rows i s ∧ SmoothedBy a g i m

/-- a usable weight -/
def Weight (a : Rat) : Prop := 0 < a ∧ a ≤ 1

/-- `d` has the rows of `c`, and at each of them the slope of the voltage over the state of charge, smoothed -/
def VoltageSlopesBy (a : Rat) (c d : List (Rat × Option Rat)) : Prop :=
  d.map Prod.fst = c.map Prod.fst ∧ SmoothedSlopesBy a (c.map (fun p => (some p.1, p.2))) (d.map Prod.snd)

/-- rows (voltage, `dQdV`, state of charge) that belong to the profile `c`: 1001 voltages from 2.7 V to 4.2 V; within the
voltages of the profile its smoothed slope of the state of charge over the voltage and its state of charge, outside the slope
0 and the state of charge 0 below and 100 above -/
def ByVoltage (a : Rat) (c : List (Rat × Option Rat)) (rows : List (Rat × Rat × Option Rat)) : Prop :=
  Even (rows.map Prod.fst) (27 / 10) (42 / 10) ∧ ∃ d, SmoothedSlopesBy a (c.map (fun p => (p.2, some p.1))) d ∧
    ∀ v s q, (v, s, q) ∈ rows →
      ((∀ p ∈ capacityByVoltage c, v < p.1) → s = 0 ∧ q = some 0) ∧
      ((∀ p ∈ capacityByVoltage c, p.1 < v) → s = 0 ∧ q = some 100) ∧
      ((∃ p ∈ capacityByVoltage c, p.1 ≤ v) → (∃ p ∈ capacityByVoltage c, v ≤ p.1) →
        OnCurve (capacityByVoltage c) v q ∧ ∃ t, OnCurve (columnByVoltage c d) v t ∧ Filled t s)

/-- the sum of the squared differences of two columns of equal length -/
def SquaredDistance (a b : List Rat) (total : Rat) : Prop :=
  ∃ ds : List Rat, ds.length = a.length ∧ total = ds.sum ∧
    ∀ (k : Nat) (v w : Rat), a[k]? = some v → b[k]? = some w → ds[k]? = some ((v - w) * (v - w))

end Beep.Spec.IntracellV1Smooth
