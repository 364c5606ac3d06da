import Verif.Model.BiologicFile
import Mathlib.Algebra.Order.Ring.Rat
/-
Vocabulary for Biologic exports.  Only the records of a configured column and of a cell are taken
from the model.
-/
namespace Beep.Spec.BiologicFile
open Beep
open Beep.BiologicFile (Kind Column Cell)

/-- the separator of a file by its name: the name ends in a dot and the extension, and does not
consist of dots before it -/
inductive Separated : Str → Char → Prop
  | csv {dir name : Str} : (dir = [] ∨ ∃ d, dir = d ++ ['/']) → '/' ∉ name → (∃ c ∈ name, c ≠ '.') →
      Separated (dir ++ name ++ ".csv".toList) ';'
  | txt {dir name : Str} : (dir = [] ∨ ∃ d, dir = d ++ ['/']) → '/' ∉ name → (∃ c ∈ name, c ≠ '.') →
      Separated (dir ++ name ++ ".txt".toList) '\t'

/-- a line that names the columns -/
def Names (line : Str) : Prop := "Ecell/V".toList <:+: line ∧ ¬ "Variables".toList <:+: line

/-- line `k`, counted from 0, is the first that names the columns -/
def Header (lines : List Str) (k : Nat) : Prop :=
  (∃ l, lines[k]? = some l ∧ Names l) ∧ ∀ i l, i < k → lines[i]? = some l → ¬ Names l

/-- the fields of a line -/
def Fields (sep : Char) (line : Str) (fs : List Str) : Prop :=
  fs ≠ [] ∧ (∀ f ∈ fs, sep ∉ f) ∧ line = List.intercalate [sep] fs

/-- the integer part -/
def Whole (q : Rat) (z : Int) : Prop :=
  (0 ≤ q → (z : Rat) ≤ q ∧ q < z + 1) ∧ (q < 0 → q ≤ z ∧ (z : Rat) - 1 < q)

/-- what is kept of a field: the whole part of an integer, a number times the scale of its
column, or the text; `num` reads numbers -/
inductive Reads (num : Str → Except Err (Option Rat)) (c : Column) (item : Str) : Cell → Prop
  | int {q z} : c.kind = .int → num item = .ok (some q) → Whole q z → Reads num c item (.int z)
  | float {q} : c.kind = .float → num item = .ok (some q) → Reads num c item (.num (some (q * c.scale)))
  | nan : c.kind = .float → num item = .ok none → Reads num c item (.num none)
  | text : c.kind = .text → Reads num c item (.text item)

/-- the field of a line under the name of a column -/
def Under (sep : Char) (names : List Str) (line name item : Str) : Prop :=
  ∃ (fs : List Str) (j : Nat), Fields sep line fs ∧ names[j]? = some name ∧ fs[j]? = some item

end Beep.Spec.BiologicFile
