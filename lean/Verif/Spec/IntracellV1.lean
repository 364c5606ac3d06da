import Verif.Spec.Intracell
import Verif.Spec.IntracellSlopes
/-
Specification vocabulary for version 1 of the intracell analysis.
-/
namespace Beep.Spec.IntracellV1
open Beep.Spec.Intracell Beep.Spec.IntracellSlopes

/-- the full cell of two electrode voltages is within the voltage limits of 2.7 V and 4.2 V -/
def Within (p n : Rat) : Prop := 27 / 10 ≤ p - n ∧ p - n ≤ 42 / 10

/-- the measured profile continued with the lower voltage limit below its states of charge and the upper one above -/
def Continued (real : List (Rat × Option Rat)) (s : Rat) (v : Option Rat) : Prop :=
  ((∀ r ∈ real, s < r.1) → v = some (27 / 10)) ∧ ((∀ r ∈ real, r.1 < s) → v = some (42 / 10)) ∧
  ((∃ r ∈ real, r.1 ≤ s) → (∃ r ∈ real, s ≤ r.1) → OnCurve real s v)

/-- `total` is the sum of the squared differences of two profiles over the rows in which both have a voltage -/
def SquaredGap (a b : List (Rat × Option Rat)) (total : Rat) : Prop :=
  ∃ ds : List Rat, ds.length = b.length ∧ total = ds.sum ∧
    ∀ (k : Nat) (x y : Rat) (v w : Option Rat), a[k]? = some (x, v) → b[k]? = some (y, w) →
      (∀ s t, v = some s → w = some t → ds[k]? = some ((s - t) * (s - t))) ∧ (v = none ∨ w = none → ds[k]? = some 0)

/-- the number of rows without a voltage -/
def blanks (c : List (Rat × Option Rat)) : Nat := c.countP (fun p => decide (p.2 = none))

/-- `d` has the rows of `c`, and at each of them the slope of the voltage over the state of charge -/
def VoltageSlopes (c d : List (Rat × Option Rat)) : Prop :=
  d.map Prod.fst = c.map Prod.fst ∧
  ∀ (i : Nat) x s, d[i]? = some (x, s) → SlopeAt (c.map (fun p => (some p.1, p.2))) i s

/-- `d` has the rows of `c`, and at each of them the slope of the state of charge over the voltage -/
def ChargeSlopes (c d : List (Rat × Option Rat)) : Prop :=
  d.map Prod.fst = c.map Prod.fst ∧
  ∀ (i : Nat) x s, d[i]? = some (x, s) → SlopeAt (c.map (fun p => (p.2, some p.1))) i s

/-- the voltage is a straight line over the state of charge, of the slope `g` -/
def Straight (c : List (Rat × Option Rat)) (g : Rat) : Prop := ∃ v0, ∀ p ∈ c, p.2 = some (v0 + g * p.1)

end Beep.Spec.IntracellV1
