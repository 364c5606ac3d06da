/-
Specification vocabulary for step classification.
-/
namespace Beep.Spec.Steps

/-- all values present, never falling, ending above the start -/
structure Rises (vals : List (Option Rat)) (l : List Rat) (first last : Rat) : Prop where
  present : vals = l.map some
  mono : l.Pairwise (· ≤ ·)
  head : l.head? = some first
  tail : l.getLast? = some last
  up : first < last

/-- no single increment exceeds 99 % of the total rise -/
def NoJump (l : List Rat) (first last : Rat) : Prop :=
  ∀ (i : Nat) (x y : Rat), l[i]? = some x → l[i + 1]? = some y → y - x ≤ 99 / 100 * (last - first)

/-- all values present and equal -/
def Flat (vals : List (Option Rat)) : Prop := ∃ p : Rat, ∀ v ∈ vals, v = some p

end Beep.Spec.Steps
