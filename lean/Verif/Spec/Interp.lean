/-
Specification vocabulary for interpolation.
-/
namespace Beep.Spec.Interp

/-- the table has a row with axis value `x` whose column `j` holds the value `y` -/
def Measured (t : List (Rat × List (Option Rat))) (j : Nat) (x y : Rat) : Prop :=
  ∃ vals, (x, vals) ∈ t ∧ vals[j]? = some (some y)

/-- no two rows have the same axis value -/
def DistinctAxis (t : List (Rat × List (Option Rat))) : Prop := (t.map Prod.fst).Nodup

/-- `p` and `q` are neighbouring measurements of column `j` -/
def Neighbours (t : List (Rat × List (Option Rat))) (j : Nat) (p yp q yq : Rat) : Prop :=
  Measured t j p yp ∧ Measured t j q yq ∧ p < q ∧ ∀ x y, Measured t j x y → x ≤ p ∨ q ≤ x

/-- the first of the rows with axis value `x` has these values -/
def FirstAt (t : List (Rat × List (Option Rat))) (x : Rat) (vals : List (Option Rat)) : Prop :=
  ∃ a b, t = a ++ (x, vals) :: b ∧ ∀ r ∈ a, r.1 ≠ x

end Beep.Spec.Interp
