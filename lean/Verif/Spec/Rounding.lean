import Verif.Proof.Base
/-
Rounding to whole numbers, independent of how it is computed.
-/
namespace Beep.Spec

/-- `n` is the whole number nearest to `x`, the even one when two are equally near -/
def Rounds (x : Rat) (n : Int) : Prop :=
  |x - n| ≤ 1 / 2 ∧ (|x - n| = 1 / 2 → n % 2 = 0)

/-- `y` is `x` rounded to two decimals -/
def TwoDecimals (x y : Rat) : Prop := ∃ n : Int, Rounds (x * 100) n ∧ y = n / 100

end Beep.Spec
