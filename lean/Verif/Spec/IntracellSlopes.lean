/-
Specification vocabulary for the derivatives that the intracell analysis compares.  A row is a pair (x, y) of numbers
that may be missing.
-/
namespace Beep.Spec.IntracellSlopes

/-- a row without `x` or without `y` -/
def Missing (p : Option Rat × Option Rat) : Prop := p.1 = none ∨ p.2 = none

/-- `s` is the slope of the line through two rows; missing if something of the rows is -/
def LineSlope (p q : Option Rat × Option Rat) (s : Option Rat) : Prop :=
  (s = none ∧ (Missing p ∨ Missing q)) ∨
  ∃ x0 y0 x1 y1 t, p = (some x0, some y0) ∧ q = (some x1, some y1) ∧ s = some t ∧ t * (x1 - x0) = y1 - y0

/-- `s` is the slope, at the middle one, of the parabola through three rows; missing if something of the rows is -/
def ParabolaSlope (p q r : Option Rat × Option Rat) (s : Option Rat) : Prop :=
  (s = none ∧ (Missing p ∨ Missing q ∨ Missing r)) ∨
  ∃ x0 y0 x1 y1 x2 y2 a b c, p = (some x0, some y0) ∧ q = (some x1, some y1) ∧ r = (some x2, some y2) ∧
    y0 = a * x0 * x0 + b * x0 + c ∧ y1 = a * x1 * x1 + b * x1 + c ∧ y2 = a * x2 * x2 + b * x2 + c ∧ s = some (2 * a * x1 + b)

/-- `s` is the slope of rows at row `i`: that of the line to the only neighbour of the first and last row, that of the
parabola through the row and its neighbours otherwise -/
def SlopeAt (rows : List (Option Rat × Option Rat)) (i : Nat) (s : Option Rat) : Prop :=
  (i = 0 ∧ ∃ p q, rows[0]? = some p ∧ rows[1]? = some q ∧ LineSlope p q s) ∨
  (0 < i ∧ i + 1 = rows.length ∧ ∃ p q, rows[i - 1]? = some p ∧ rows[i]? = some q ∧ LineSlope p q s) ∨
  (0 < i ∧ ∃ p q r, rows[i - 1]? = some p ∧ rows[i]? = some q ∧ rows[i + 1]? = some r ∧ ParabolaSlope p q r s)

/-- the `x` of neighbouring rows, where present, rise -/
def Rising (rows : List (Option Rat × Option Rat)) : Prop :=
  ∀ (i : Nat) x0 y0 x1 y1, rows[i]? = some (some x0, y0) → rows[i + 1]? = some (some x1, y1) → x0 < x1

/-- the sum of `f 0, …, f i`, each divided by 11 once for every later index -/
def decayed (f : Nat → Rat) (i : Nat) : Rat := ((List.range (i + 1)).map (fun j => f j / 11 ^ (i - j))).sum

/-- 1 for a value that is present, 0 for a missing one -/
def indicator (g : List (Option Rat)) (j : Nat) : Rat := match g[j]? with
  | some (some _) => 1
  | _ => 0

/-- a value, 0 for a missing one -/
def valueOr0 (g : List (Option Rat)) (j : Nat) : Rat := match g[j]? with
  | some (some v) => v
  | _ => 0

/-- `m` is the exponentially weighted mean of the values up to index `i`, missing ones left out; the weight falls by a
factor of 11 from index to index into the past.  Missing if all values up to `i` are. -/
def Smoothed (g : List (Option Rat)) (i : Nat) (m : Option Rat) : Prop :=
  (m = none ∧ ∀ j, j ≤ i → g[j]? = some none) ∨
  ∃ x, m = some x ∧ 0 < decayed (indicator g) i ∧ x * decayed (indicator g) i = decayed (valueOr0 g) i

/-- `d` are the smoothed slopes of rows -/
def SmoothedSlopes (rows : List (Option Rat × Option Rat)) (d : List (Option Rat)) : Prop :=
  ∃ g : List (Option Rat), g.length = rows.length ∧ d.length = rows.length ∧
    ∀ i, i < rows.length → ∃ s m, g[i]? = some s ∧ d[i]? = some m ∧ SlopeAt rows i s ∧ Smoothed g i m

/-- capacity by voltage -/
def capacityByVoltage (c : List (Rat × Option Rat)) : List (Rat × Option Rat) := c.filterMap (fun p => p.2.map (fun w => (w, some p.1)))

/-- a further column by voltage -/
def columnByVoltage (c : List (Rat × Option Rat)) (d : List (Option Rat)) : List (Rat × Option Rat) :=
  (c.zip d).filterMap (fun r => r.1.2.map (fun w => (w, r.2)))

/-- every row has a voltage and the voltages rise with the capacity -/
def RisingVoltage (c : List (Rat × Option Rat)) : Prop :=
  (∀ p ∈ c, p.2 ≠ none) ∧ ∀ (i : Nat) x0 v0 x1 v1, c[i]? = some (x0, some v0) → c[i + 1]? = some (x1, some v1) → v0 < v1

/-- `s` is the number `v`, 0 if `s` is missing -/
def Filled (s : Option Rat) (v : Rat) : Prop := s = some v ∨ (s = none ∧ v = 0)

end Beep.Spec.IntracellSlopes
