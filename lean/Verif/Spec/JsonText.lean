import Verif.Model.JsonText

/-!
# What may be saved, and what a user expects of an interrupted save
-/

namespace Beep.Spec.JsonText

open Beep.JsonText

/-- One or more decimal digits. -/
def Digits (t : Text) : Prop := t ≠ [] ∧ ∀ c ∈ t, '0' ≤ c ∧ c ≤ '9'

/-- The literal of a number: `-12`, `0.5`, `1e-05`, `-3.25e+300`, … -/
def Numeral (t : Text) : Prop :=
  ∃ sign int frac exp : Text,
    t = sign ++ (int ++ (frac ++ exp)) ∧
    (sign = [] ∨ sign = ['-']) ∧
    (int = ['0'] ∨ (Digits int ∧ int.head? ≠ some '0')) ∧
    (frac = [] ∨ ∃ ds, frac = '.' :: ds ∧ Digits ds) ∧
    (exp = [] ∨ ∃ e s ds, exp = e :: (s ++ ds) ∧ (e = 'e' ∨ e = 'E') ∧
      (s = [] ∨ s = ['+'] ∨ s = ['-']) ∧ Digits ds)

/-- A Unicode character: no code point beyond U+10FFFF, no half of a pair. -/
def Unicode (n : Nat) : Prop := n < 0xd800 ∨ (0xe000 ≤ n ∧ n ≤ 0x10ffff)

mutual
/-- All numbers have the form of a number and all strings consist of Unicode characters. -/
def Proper : J → Prop
  | .num lit => Numeral lit
  | .str s => ∀ n ∈ s, Unicode n
  | .arr l => ProperElems l
  | .obj l => ProperPairs l
  | .null | .bool _ | .nan | .inf _ => True
/-- The same for all elements of a list. -/
def ProperElems : List J → Prop
  | [] => True
  | v :: l => Proper v ∧ ProperElems l
/-- The same for all keys and values of a dictionary. -/
def ProperPairs : List (List Nat × J) → Prop
  | [] => True
  | (k, v) :: l => (∀ n ∈ k, Unicode n) ∧ Proper v ∧ ProperPairs l
end

/-- What `as_dict` gives and every save writes: a dictionary. -/
def IsDict : J → Prop
  | .obj _ => True
  | _ => False

/-- Some versions of the writer end the file with a line feed. -/
def LineEnd (t : Text) : Prop := t = [] ∨ t = ['\n']

end Beep.Spec.JsonText
