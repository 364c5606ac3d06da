import Verif.Model.Units
/-
Specification vocabulary for physical units.
-/
namespace Beep.Spec.Units
open Beep.Units

/-- the size of a unit in volts, amperes, watts, ohms or seconds -/
def factor : String → Option Rat
  | "V" => some 1
  | "mV" => some (1 / 1000)
  | "A" => some 1
  | "mA" => some (1 / 1000)
  | "µA" => some (1 / 1000000)
  | "nA" => some (1 / 1000000000)
  | "pA" => some (1 / 1000000000000)
  | "W" => some 1
  | "mW" => some (1 / 1000)
  | "µW" => some (1 / 1000000)
  | "MOhms" => some 1000000
  | "kOhms" => some 1000
  | "Ohms" => some 1
  | "mOhms" => some (1 / 1000)
  | "µOhms" => some (1 / 1000000)
  | "h" => some 3600
  | "mn" => some 60
  | "s" => some 1
  | "ms" => some (1 / 1000)
  | _ => none

/-- the quantity denoted by a value/unit pair -/
def denotes (p : Rat × String) (q : Rat) : Prop := ∃ f, factor p.2 = some f ∧ p.1 * f = q

/-- the duration of a Maccor time in seconds -/
def seconds (t : Time) : Rat := t.h * 3600 + t.m * 60 + t.s

/-- the number has at most `k` digits after the decimal point -/
def Decimals (x : Rat) (k : Nat) : Prop := ∃ n : Int, x * 10 ^ k = n

end Beep.Spec.Units
