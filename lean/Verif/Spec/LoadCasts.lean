import Verif.Spec.Casts
import Verif.Model.LoadCasts
/-
Independent vocabulary for loading: where the kinds of the columns are published, what a kind can
hold exactly, and when two dictionaries hold the same numbers.
-/
namespace Beep.Spec.LoadCasts
open Beep Beep.Casts Beep.LoadCasts Beep.Spec.Casts

/-- the published kinds of the columns of each structured object -/
def kinds : List (String × List (List String × Kind)) :=
  [("cycles_interpolated", interpolatedKinds), ("summary", summaryKinds),
   ("diagnostic_summary", diagnosticSummaryKinds), ("diagnostic_interpolated", diagnosticKinds)]

/-- column `n` of object `o` is published as of kind `k` -/
def KindOf (o n : String) (k : Kind) : Prop := ∃ t, (o, t) ∈ kinds ∧ HasKind t n k

/-- a kind takes the value: whole numbers in range for integers, no text among floating-point numbers -/
def Takes : Kind → Cell → Prop
  | .signed b, x => ∃ n : Int, x = .num n ∧ -2 ^ (b - 1) ≤ n ∧ n < 2 ^ (b - 1)
  | .unsigned b, x => ∃ n : Int, x = .num n ∧ 0 ≤ n ∧ n < 2 ^ b
  | .float _ _ _, x => ∀ s, x ≠ .text s
  | .asRead, x => ∀ s, x ≠ .text s
  | .label, _ => True
  | .text, _ => True

/-- the values of a column; none for `None` -/
def values : Column → Option (List Cell)
  | .null => none
  | .list xs => some xs
  | .series _ xs => some xs

/-- what dictionary `d` holds under object `o`, column `n` -/
def Holds (d : Doc) (o n : String) (c : Column) : Prop :=
  ∃ cols, Dict.get? d o = some (some cols) ∧ Dict.get? cols n = some c

/-- the same objects with the same columns, in the same order -/
def SameNames (d d' : Doc) : Prop :=
  Dict.keys d' = Dict.keys d ∧
  (∀ o, Dict.get? d o = some none → Dict.get? d' o = some none) ∧
  ∀ o cols, Dict.get? d o = some (some cols) →
    ∃ cols', Dict.get? d' o = some (some cols') ∧ Dict.keys cols' = Dict.keys cols

/-- the same numbers under the same names -/
def SameNumbers (d d' : Doc) : Prop :=
  SameNames d d' ∧ ∀ o n c, Holds d o n c → ∃ c', Holds d' o n c' ∧ values c' = values c

/-- a dictionary as a JSON file gives it: no column is a series -/
def Plain (d : Doc) : Prop := ∀ o n c, Holds d o n c → c = .null ∨ ∃ xs, c = .list xs

/-- the structured objects of `d` are saved results of structuring: each is the list form of rows of a
table with distinct column names that the casts of structuring produced -/
def SavedResult (d : Doc) : Prop :=
  ∀ o cols, Dict.get? d o = some (some cols) →
    ∃ ts f g g', (o, ts) ∈ structureTypes ∧ castAvailable ts f = .ok g ∧ (names g).Nodup ∧
      List.Forall₂ (fun a b : String × List Cell => b.1 = a.1 ∧ b.2.Sublist a.2) g g' ∧ cols = listed g'

end Beep.Spec.LoadCasts
