/-
Specification vocabulary for the intracell analysis.  A curve is a list of points: state of charge or capacity, and a
voltage that may be missing.
-/
namespace Beep.Spec.Intracell

/-- no two points at the same place -/
def Distinct (c : List (Rat × Option Rat)) : Prop := (c.map Prod.fst).Nodup

/-- the value of the straight line through two points, missing if one of theirs is -/
def Between (p q : Rat × Option Rat) (x : Rat) (v : Option Rat) : Prop :=
  (∃ a b, p.2 = some a ∧ q.2 = some b ∧ v = some (a + (b - a) * (x - p.1) / (q.1 - p.1))) ∨
  ((p.2 = none ∨ q.2 = none) ∧ v = none)

/-- the piecewise linear curve through the points has the value `v` at `x`: the value of the point there, or that of the
line between the two neighbouring points, and none outside of the curve -/
def OnCurve (c : List (Rat × Option Rat)) (x : Rat) (v : Option Rat) : Prop :=
  (x, v) ∈ c ∨
  (∃ p ∈ c, ∃ q ∈ c, p.1 < x ∧ x < q.1 ∧ (∀ r ∈ c, r.1 ≤ p.1 ∨ q.1 ≤ r.1) ∧ Between p q x v) ∨
  (((∀ r ∈ c, x < r.1) ∨ (∀ r ∈ c, r.1 < x)) ∧ v = none)

/-- `a` is the least and `b` the largest place of a curve -/
def Extent (c : List (Rat × Option Rat)) (a b : Rat) : Prop :=
  (∃ p ∈ c, p.1 = a) ∧ (∃ p ∈ c, p.1 = b) ∧ ∀ p ∈ c, a ≤ p.1 ∧ p.1 ≤ b

/-- 1001 evenly spaced places from `a` to `b` -/
def Even (xs : List Rat) (a b : Rat) : Prop :=
  xs.length = 1001 ∧ ∀ k : Nat, k < 1001 → xs[k]? = some (a + (k : Rat) * (b - a) / 1000)

/-- the voltages of two electrodes in row `k`, both at the place `x` -/
def RowAt (pe ne : List (Rat × Option Rat)) (k : Nat) (x p n : Rat) : Prop :=
  pe[k]? = some (x, some p) ∧ ne[k]? = some (x, some n)

/-- distance of a full cell voltage from `v` -/
def off (v w : Rat) : Rat := if w - v < 0 then - (w - v) else w - v

/-- `k` is the first row whose full cell voltage (positive minus negative electrode) is nearest to `v` -/
def Nearest (pe ne : List (Rat × Option Rat)) (v : Rat) (k : Nat) : Prop :=
  ∃ x p n, RowAt pe ne k x p n ∧ ∀ (j : Nat) (y q m : Rat), RowAt pe ne j y q m →
    off v (p - n) ≤ off v (q - m) ∧ (j < k → off v (p - n) < off v (q - m))

/-- the label of the full cell voltage `4.2 - i / 10`, for example "3p6V" -/
def voltLabel (i : Nat) : String := toString ((42 - i) / 10) ++ "p" ++ toString ((42 - i) % 10) ++ "V"

/-- the state of charge at the place `x` of an electrode, as a fraction of the range in which it has a voltage -/
def FractionAt (e : List (Rat × Option Rat)) (x f : Rat) : Prop :=
  ∃ lo hi, Extent (e.filter (fun p => p.2.isSome)) lo hi ∧ lo < hi ∧ f = (x - lo) / (hi - lo)

/-- the electrode has voltages over a range of width `w` -/
def Width (e : List (Rat × Option Rat)) (w : Rat) : Prop :=
  ∃ lo hi, Extent (e.filter (fun p => p.2.isSome)) lo hi ∧ w = hi - lo

/-- the electrode has voltages at two places at least -/
def Wide (e : List (Rat × Option Rat)) : Prop :=
  ∃ x y v w, (x, some v) ∈ e ∧ (y, some w) ∈ e ∧ x < y

/-- both electrodes have voltages over a range of width `w` -/
def CommonWidth (pe ne : List (Rat × Option Rat)) (w : Rat) : Prop :=
  ∃ lo hi, (∃ k p n, RowAt pe ne k lo p n) ∧ (∃ k p n, RowAt pe ne k hi p n) ∧
    (∀ k x p n, RowAt pe ne k x p n → lo ≤ x ∧ x ≤ hi) ∧ w = hi - lo

/-- `x` lies on the line through two neighbouring points of a curve, or below or above all points on the line through the
two lowest or highest ones, and `y` is the value of this line -/
def OnExtended (pts : List (Rat × Rat)) (x y : Rat) : Prop :=
  ∃ p ∈ pts, ∃ q ∈ pts, p.1 < q.1 ∧ (∀ r ∈ pts, r.1 ≤ p.1 ∨ q.1 ≤ r.1) ∧
    (p.1 ≤ x ∨ ∀ r ∈ pts, p.1 ≤ r.1) ∧ (x ≤ q.1 ∨ ∀ r ∈ pts, r.1 ≤ q.1) ∧
    y = p.2 + (q.2 - p.2) * (x - p.1) / (q.1 - p.1)

/-- the state of charge of an electrode at a voltage, from the electrode's points (state of charge, voltage) -/
def SocAt (e : List (Rat × Option Rat)) (v s : Rat) : Prop :=
  ∀ pts : List (Rat × Rat), (∀ a b, (a, b) ∈ pts ↔ (b, some a) ∈ e) → OnExtended pts v s

/-- no two rows of an electrode with the same voltage, and at least two voltages -/
def Monotone (e : List (Rat × Option Rat)) : Prop :=
  e.Pairwise (fun p q => p.2 ≠ none → p.2 ≠ q.2) ∧ ∃ p ∈ e, ∃ q ∈ e, p.2 ≠ none ∧ q.2 ≠ none ∧ p.2 ≠ q.2

end Beep.Spec.Intracell
