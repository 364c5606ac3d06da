import Verif.Model.Py
import Verif.Model.Pandas
/-
Model of the unit conversions between Maccor and Biologic protocols:
beep/protocol/maccor_to_biologic_mb.py:96-195, beep/protocol/biologic_mb_to_maccor.py:153-239.
A written number is represented by the rational it denotes; floating point rounding is not
modelled.
-/
namespace Beep.Units
open Beep Beep.Pandas

/-- a decimal literal as it appears in a procedure file: sign, integer part, digits after
the point, exponent (maccor_to_biologic_mb.py:96-195) -/
structure Dec where
  neg : Bool
  int : Nat
  frac : List (Fin 10)
  exp : Int
  deriving DecidableEq, Repr

/-- `10 ** e` (maccor_to_biologic_mb.py:96-195) -/
def pow10 : Int → Rat
  | .ofNat n => (10 ^ n : Nat)
  | .negSucc n => 1 / ((10 ^ (n + 1) : Nat) : Rat)

/-- value of the digits after the point (maccor_to_biologic_mb.py:96-195) -/
def fracValue : List (Fin 10) → Rat
  | [] => 0
  | d :: ds => ((d.val : Rat) + fracValue ds) / 10

/-- `float(val_str)` (maccor_to_biologic_mb.py:96-195) -/
def Dec.value (d : Dec) : Rat :=
  (if d.neg then -1 else 1) * ((d.int : Rat) + fracValue d.frac) * pow10 d.exp

/-- length of the digits up to the last one that is not zero: the group of
`re.search("\\.([0-9]*[1-9])", val_str)`, 0 without match -/
def explicitFigs : List (Fin 10) → Nat
  | [] => 0
  | d :: ds => match explicitFigs ds with
    | 0 => if d = 0 then 0 else 1
    | n + 1 => n + 2

/-- `_get_decimal_sig_figs`, maccor_to_biologic_mb.py:96-103 -/
def Dec.sigFigs (d : Dec) : Int := (explicitFigs d.frac : Int) - d.exp

/-- the number denoted by `"{:.3f}".format(x)` (maccor_to_biologic_mb.py:96-195) -/
def fmt3 (x : Rat) : Rat := (roundEven (x * 1000) : Rat) / 1000

/-- `_convert_volts`, maccor_to_biologic_mb.py:105-111 -/
def convertVolts (d : Dec) : Rat × String :=
  if d.value < 1 ∨ d.sigFigs > 3 then (fmt3 (d.value * 1000), "mV") else (fmt3 d.value, "V")

/-- `_convert_amps`, maccor_to_biologic_mb.py:113-126 -/
def convertAmps (d : Dec) : Rat × String :=
  if d.value < 1 / 10 ^ 9 ∨ d.sigFigs > 12 then (fmt3 (d.value * 10 ^ 12), "pA")
  else if d.value < 1 / 10 ^ 6 ∨ d.sigFigs > 9 then (fmt3 (d.value * 10 ^ 9), "nA")
  else if d.value < 1 / 10 ^ 3 ∨ d.sigFigs > 6 then (fmt3 (d.value * 10 ^ 6), "µA")
  else if d.value < 1 ∨ d.sigFigs > 3 then (fmt3 (d.value * 10 ^ 3), "mA")
  else (fmt3 d.value, "A")

/-- `_convert_watts`, maccor_to_biologic_mb.py:128-137 -/
def convertWatts (d : Dec) : Rat × String :=
  if d.value < 1 / 10 ^ 3 ∨ d.sigFigs > 6 then (fmt3 (d.value * 10 ^ 6), "µW")
  else if d.value < 1 ∨ d.sigFigs > 3 then (fmt3 (d.value * 10 ^ 3), "mW")
  else (fmt3 d.value, "W")

/-- `_convert_ohms`, maccor_to_biologic_mb.py:139-152 -/
def convertOhms (d : Dec) : Rat × String :=
  if d.value < 1 / 10 ^ 3 ∨ d.sigFigs > 6 then (fmt3 (d.value * 10 ^ 6), "µOhms")
  else if d.value < 1 ∨ d.sigFigs > 3 then (fmt3 (d.value * 10 ^ 3), "mOhms")
  else if d.value < 10 ^ 3 ∨ d.sigFigs > 0 then (fmt3 d.value, "Ohms")
  else if d.value < 10 ^ 6 ∨ d.sigFigs > -3 then (fmt3 (d.value / 10 ^ 3), "kOhms")
  else (fmt3 (d.value / 10 ^ 6), "MOhms")

/-- Python `int(x)`: truncation towards zero (biologic_mb_to_maccor.py:153-239) -/
def trunc (x : Rat) : Int := if 0 ≤ x then x.floor else -((-x).floor)

/-- a Maccor time `hours:minutes:seconds` with its three parts already converted to numbers
(an empty part is 0), maccor_to_biologic_mb.py:165-168 -/
structure Time where
  h : Rat
  m : Rat
  s : Rat
  deriving DecidableEq, Repr

/-- `_convert_time`, maccor_to_biologic_mb.py:170-195.  `secs % 1.0 == 0.0` is "secs is an
integer". -/
def convertTime (t : Time) : Rat × String :=
  if t.m = 0 ∧ t.s = 0 then (fmt3 (trunc t.h), "h")
  else if t.s = 0 then (fmt3 (trunc (t.h * 60 + t.m)), "mn")
  else if t.s.den = 1 then (fmt3 (trunc (t.h * 60 * 60 + t.m * 60 + t.s)), "s")
  else
    let ms := trunc (t.h * 60 * 60 * 1000 + t.m * 60 * 1000 + t.s * 1000)
    if ms < 10 ^ 10 then (fmt3 ms, "ms") else (fmt3 ((ms : Rat) / 1000), "s")

/-- `_convert_voltage`, biologic_mb_to_maccor.py:198-209: the value denoted by the string
written -/
def backVolts (v : Rat) (unit : String) : Except Err Rat :=
  if unit = "V" then .ok v else if unit = "mV" then .ok (v / 10 ^ 3) else .error .valueError

/-- `_convert_current`, biologic_mb_to_maccor.py:178-196; the Greek letter mu and the micro
sign are accepted -/
def backAmps (v : Rat) (unit : String) : Except Err Rat :=
  if unit = "A" then .ok v
  else if unit = "mA" then .ok (v / 10 ^ 3)
  else if unit = "μA" ∨ unit = "µA" then .ok (v / 10 ^ 6)
  else if unit = "nA" then .ok (v / 10 ^ 9)
  else if unit = "pA" then .ok (v / 10 ^ 12)
  else .error .valueError

/-- `_convert_resistance`, biologic_mb_to_maccor.py:211-228 -/
def backOhms (v : Rat) (unit : String) : Except Err Rat :=
  if unit = "MOhm" then .ok (v * 10 ^ 6)
  else if unit = "kOhm" then .ok (v * 10 ^ 3)
  else if unit = "Ohm" then .ok v
  else if unit = "mOhm" then .ok (v / 10 ^ 3)
  else if unit = "μOhm" ∨ unit = "µOhm" then .ok (v / 10 ^ 6)
  else .error .valueError

/-- `_convert_power`, biologic_mb_to_maccor.py:230-239 -/
def backWatts (v : Rat) (unit : String) : Except Err Rat :=
  if unit = "W" then .ok v
  else if unit = "mW" then .ok (v / 10 ^ 3)
  else if unit = "μW" ∨ unit = "µW" then .ok (v / 10 ^ 6)
  else .error .valueError

/-- `x % 10` for a float (biologic_mb_to_maccor.py:153-239) -/
def mod10 (x : Rat) : Rat := x - 10 * (x / 10).floor

/-- `_convert_time`, biologic_mb_to_maccor.py:153-176: the three parts of the Maccor time
written.  `"{:.2f}"` rounds to hundredths. -/
def backTime (v : Rat) (unit : String) : Except Err Time :=
  if unit = "h" then .ok ⟨v, 0, 0⟩
  else if unit = "mn" then .ok ⟨0, v, 0⟩
  else if unit = "s" then .ok ⟨0, 0, v⟩
  else if unit = "ms" then
    if 1 / 10 ≤ mod10 v ∧ mod10 v ≤ 99 / 10 then .error .valueError
    else .ok ⟨0, 0, round2 (v / 1000)⟩
  else .error .valueError

end Beep.Units
