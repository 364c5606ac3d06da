import Verif.Model.Routing
/-
What the file name patterns mean, said without regular expressions: C58.
-/
namespace Beep.Spec.Routing
open Beep

/-- no line break -/
def OneLine (s : Str) : Prop := '\n' ∉ s

/-- the first line of the name contains `s` and later `ext`; anything may follow -/
def Contains (s ext : Str) (name : Str) : Prop :=
  ∃ a b z : Str, name = a ++ s ++ b ++ ext ++ z ∧ OneLine a ∧ OneLine b

/-- the first line of the name contains `s` -/
def Has (s : Str) (name : Str) : Prop := ∃ a z : Str, name = a ++ s ++ z ∧ OneLine a

/-- a run of digits, `n` long -/
def Digits (digit : Char → Bool) (n : Nat) (s : Str) : Prop := s.length = n ∧ ∀ c ∈ s, digit c = true

/-- five digits in a row, and three more in a row later -/
def Numbered (digit : Char → Bool) (name : Str) : Prop :=
  ∃ a d b e z : Str, name = a ++ d ++ b ++ e ++ z ∧ OneLine a ∧ OneLine b ∧
    Digits digit 5 d ∧ Digits digit 3 e

/-- the documented pattern of every reader -/
def Pattern (digit : Char → Bool) (name : Str) : Routing.Reader → Prop
  | .arbin => Contains "CH".toList ".csv".toList name ∨ Contains "FastCharge".toList ".csv".toList name
  | .maccor => Numbered digit name ∨ Contains "xTESLADIAG".toList ".csv".toList name
  | .indigo => Has ".h5".toList name
  | .biologic => (Contains "_C".toList ".txt".toList name ∨ Contains "_C".toList ".csv".toList name) ∧
      ¬ Has "_CH".toList name
  | .neware => Contains "neware".toList ".csv".toList name
  | .batteryArchive => Has "timeseries.csv".toList name

/-- the order of precedence -/
def rank : Routing.Reader → Nat
  | .arbin => 0 | .maccor => 1 | .indigo => 2 | .biologic => 3 | .neware => 4 | .batteryArchive => 5

end Beep.Spec.Routing
