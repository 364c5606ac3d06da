import Verif.Spec.FastCharge
/-
Vocabulary for a schedule made from a shell schedule and a list of steps.
-/
namespace Beep.Spec.ArbinShell
open Beep Beep.Dash Beep.Spec.FastCharge

/-- the key is the word followed by a digit and anything else -/
def Numbered (p : String) (k : Str) : Prop := ∃ (d : Char) (r : Str), d.isDigit ∧ k = p.toList ++ d :: r

/-- the key names a step -/
def IsStep (k : Str) : Prop := Numbered "Step" k

/-- the key names a safety section -/
def IsSafety (k : Str) : Prop := Numbered "UserDefineSafety" k

/-- the key of step `i` -/
def StepNo (i : Nat) : Str := "Step".toList ++ (toString i).toList

/-- the entries that carry the number of steps and the safety ranges -/
def settings : List Str :=
  ["m_uStepNum".toList, "m_VoltageSafetyScope".toList, "m_AuxTempSafetyScope".toList,
   "m_CurrentSafetyScope".toList]

/-- the entry that turns the temperature limit on -/
def enable : Str := "m_AuxSafetyEnabled".toList

/-- the text stands for the whole number of millionths nearest to `x` -/
def Writes6 (t : Str) (x : Rat) : Prop :=
  ∃ y, Denotes t y ∧ (∃ k : Int, y = k / 1000000) ∧ |y - x| ≤ 1 / 2000000

/-- the text gives a range: minimum, `^`, maximum -/
def Range (t : Str) (r : Rat × Rat) : Prop :=
  ∃ a b, t = a ++ '^' :: b ∧ Writes6 a r.1 ∧ Writes6 b r.2

end Beep.Spec.ArbinShell
