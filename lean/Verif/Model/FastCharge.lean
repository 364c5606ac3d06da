import Verif.Model.Schedule
import Verif.Model.Pandas
/-
Model of `Schedule.from_fast_charge`, beep/protocol/arbin.py 112-141.  Numbers are exact
rationals; floating point rounding is not modelled.
-/
namespace Beep.Arbin
open Beep Beep.Dash Beep.Pandas

/-- the decimal digits of a number of thousandths with the point, as in `"{0:.3f}"`
(arbin.py:131-138) -/
def thousandths (k : Nat) : Str :=
  let f := Nat.toDigits 10 (k % 1000)
  Nat.toDigits 10 (k / 1000) ++ '.' :: (List.replicate (3 - f.length) '0' ++ f)

/-- `"{0:.3f}".format(x)` (arbin.py:131, 137, 140): three decimals, half to even, and the sign of
`x` even when all digits are zero -/
def fixed3 (x : Rat) : Str :=
  if x < 0 then '-' :: thousandths (roundEven (-x * 1000)).toNat
  else thousandths (roundEven (x * 1000)).toNat

/-- `s.rstrip("0")` (arbin.py:131, 137, 140) -/
def rstripZeros (s : Str) : Str := (s.reverse.dropWhile (· = '0')).reverse

/-- the text written for a parameter (arbin.py:131, 137, 140) -/
def amount (x : Rat) : Str := rstripZeros (fixed3 x)

/-- `from_fast_charge`, arbin.py:128-141, from the template as read; the mode of
`set_labelled_steps` is its default "first" -/
def fromFastCharge (template : Obj) (cc1 cap cc2 : Rat) : Except Err Obj := do
  let o1 ← setLabelledSteps template "CC1".toList "m_szCtrlValue".toList (.str (amount cc1)) true
  let o2 ← setLabelledLimits o1 "CC1".toList "PV_CHAN_Charge_Capacity".toList (.str ['>']) (.str (amount cap))
  setLabelledSteps o2 "CC2".toList "m_szCtrlValue".toList (.str (amount cc2)) true

end Beep.Arbin
