import Verif.Spec.Schedule
import Mathlib.Algebra.Order.Ring.Rat
import Mathlib.Algebra.Order.Group.Abs
/-
Vocabulary for the numbers written into a schedule.
-/
namespace Beep.Spec.FastCharge
open Beep

/-- a text of decimal digits -/
def Digits (s : Str) : Prop := ∀ c ∈ s, c.isDigit

/-- the text is a decimal number, with a point, and stands for `x` -/
def Denotes (t : Str) (x : Rat) : Prop :=
  ∃ (neg : Bool) (ip fp : Str), t = (if neg then ['-'] else []) ++ ip ++ '.' :: fp ∧
    ip ≠ [] ∧ Digits ip ∧ Digits fp ∧
    x = (if neg then -1 else 1) *
      ((Nat.ofDigitChars 10 ip 0 : Rat) + (Nat.ofDigitChars 10 fp 0 : Rat) / 10 ^ fp.length)

/-- the text stands for the whole number of thousandths nearest to `x` -/
def Writes (t : Str) (x : Rat) : Prop := ∃ y, Denotes t y ∧ (∃ k : Int, y = k / 1000) ∧ |y - x| ≤ 1 / 2000

end Beep.Spec.FastCharge
