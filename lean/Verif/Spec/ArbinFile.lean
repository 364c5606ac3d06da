import Verif.Spec.Dash
import Verif.Model.Text
/-
The schedules that the Arbin file format can hold.
-/
namespace Beep.Spec.Arbin
open Beep Beep.Dash Beep.Text

/-- the plain entries of a dictionary -/
def plain : Obj → List (Str × Str)
  | .nil => []
  | .leaf k v r => (k, v) :: plain r
  | .node _ _ r => plain r

/-- the line contains a bracketed text, which reads like a section header -/
def Bracketed (s : Str) : Prop := ∃ a b c, s = a ++ '[' :: b ++ ']' :: c ∧ b ≠ []

/-- the characters of the encoding -/
def Latin (s : Str) : Prop := ∀ c ∈ s, c.toNat < 256

/-- the name of a section: not empty, and without the characters that separate names, mark
headers or end lines -/
def GoodName (k : Str) : Prop := k ≠ [] ∧ Latin k ∧ ∀ c ∈ k, c ∉ ['.', '_', '[', ']', '\\', '\r', '\n']

/-- an entry that fits on one line -/
def GoodEntry (kv : Str × Str) : Prop :=
  Latin kv.1 ∧ Latin kv.2 ∧ '=' ∉ kv.1 ∧ (∀ c ∈ kv.1 ++ kv.2, c ≠ '\r' ∧ c ≠ '\n') ∧
  ¬ Bracketed (kv.1 ++ '=' :: kv.2)

/-- the plain entries of a section: there is one, and the text does not begin or end with a
blank -/
def GoodBody (l : List (Str × Str)) : Prop :=
  l ≠ [] ∧ (∀ kv ∈ l, GoodEntry kv) ∧
  (∀ kv c, l.head? = some kv → kv.1.head? = some c → isWs c = false) ∧
  (∀ kv c, l.getLast? = some kv → kv.2.getLast? = some c → isWs c = false)

/-- the dictionary fits into the file format: keys are distinct, plain entries (allowed here when
`b`) come before sections, and every section has a good name and a good body -/
def Fits : Bool → Obj → Prop
  | _, .nil => True
  | b, .leaf k _ r => b = true ∧ k ∉ r.keys ∧ Fits true r
  | _, .node k s r => k ∉ r.keys ∧ GoodName k ∧ GoodBody (plain s) ∧ Fits true s ∧ Fits false r

end Beep.Spec.Arbin
