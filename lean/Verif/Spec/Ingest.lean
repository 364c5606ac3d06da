import Verif.Model.Transfer
import Mathlib.Data.Nat.Digits.Defs
/-
Vocabulary for reading names, headers, time stamps and columns.
-/
namespace Beep.Spec.Ingest
open Beep

/-! ### run files and parameter files -/

/-- value of a decimal digit -/
def digit (c : Char) : Nat := c.toNat - '0'.toNat

/-- the number written with these decimal digits -/
def Written (ds : Str) (n : Nat) : Prop :=
  ds ≠ [] ∧ (∀ c ∈ ds, c.isDigit = true) ∧ Nat.ofDigits 10 (ds.reverse.map digit) = n

/-- `path` is the file of run `n` of a project: `<directory><project>_<n>`, and then nothing, or more
after an underscore or a dot -/
def RunFile (path project : Str) (n : Nat) : Prop :=
  ∃ dir ds tail : Str, path = dir ++ (project ++ '_' :: (ds ++ tail)) ∧ (dir = [] ∨ ∃ d, dir = d ++ ['/']) ∧
    Written ds n ∧ (tail = [] ∨ ∃ t, tail = '_' :: t ∨ tail = '.' :: t) ∧ '/' ∉ tail ∧
    '/' ∉ project ∧ '_' ∉ project ∧ '.' ∉ project

/-- a parameter file belongs to the project that is named before its first underscore -/
def BelongsTo (file project : Str) : Prop := '_' ∉ project ∧ ∃ rest, file = project ++ '_' :: rest

/-! ### text with labels -/

/-- `f` occurs in `s` at exactly one place -/
def Once (f s : Str) : Prop := ∃ a b, s = a ++ f ++ b ∧ ∀ a' b', s = a' ++ f ++ b' → a' = a

/-- `<label><value><label><value>…` -/
def weave : List (Str × Str) → Str
  | [] => []
  | (f, v) :: l => f ++ (v ++ weave l)

/-- the labels in the header of a Maccor file, in their order -/
def labels : List Str :=
  ["Today's Date".toList, "Date of Test:".toList, "Filename:".toList, "Procedure:".toList, "Comment/Barcode:".toList]

/-- the names under which the values are reported -/
def keys : List Str :=
  ["Today's Date".toList, "Date of Test".toList, "Filename".toList, "Procedure".toList, "Comment/Barcode".toList]

/-- `v` without surrounding white space is `w` -/
def Trimmed (v w : Str) : Prop :=
  ∃ a b, v = a ++ w ++ b ∧ (∀ c ∈ a, Text.isWs c = true) ∧ (∀ c ∈ b, Text.isWs c = true) ∧
    (∀ c, w.head? = some c → Text.isWs c = false) ∧ (∀ c, w.getLast? = some c → Text.isWs c = false)

/-! ### local time in California since 2007 -/

/-- `day` (counted so that 1 January of year 1 is day 1, a Monday) is a Sunday -/
def Sunday (day : Int) : Prop := day % 7 = 0

/-- daylight saving time begins at this instant (seconds, UTC): the second Sunday of March, 2:00
standard time -/
def Begins (y t : Int) : Prop :=
  ∃ d, 8 ≤ d ∧ d ≤ 14 ∧ Sunday (Ingest.ordinal y 3 d) ∧ t = (Ingest.ordinal y 3 d * 24 + 2 + 8) * 3600

/-- daylight saving time ends at this instant: the first Sunday of November, 2:00 daylight time -/
def Ends (y t : Int) : Prop :=
  ∃ d, 1 ≤ d ∧ d ≤ 7 ∧ Sunday (Ingest.ordinal y 11 d) ∧ t = (Ingest.ordinal y 11 d * 24 + 2 + 7) * 3600

/-- a date of the Gregorian calendar in the years 1 to 9999 -/
def IsDate (y m d : Int) : Prop :=
  1 ≤ y ∧ y ≤ 9999 ∧ 1 ≤ d ∧
  (m ∈ [1, 3, 5, 7, 8, 10, 12] ∧ d ≤ 31 ∨ m ∈ [4, 6, 9, 11] ∧ d ≤ 30 ∨
   m = 2 ∧ (d ≤ 28 ∨ d = 29 ∧ y % 4 = 0 ∧ (y % 100 ≠ 0 ∨ y % 400 = 0)))

/-- a time of day in whole seconds -/
def IsTime (h mi s : Int) : Prop := 0 ≤ h ∧ h < 24 ∧ 0 ≤ mi ∧ mi < 60 ∧ 0 ≤ s ∧ s < 60

instance (y m d : Int) : Decidable (IsDate y m d) := by unfold IsDate; infer_instance

instance (h mi s : Int) : Decidable (IsTime h mi s) := by unfold IsTime; infer_instance

/-- at the instant `t` clocks in California show this date and time -/
def Shows (t y m d h mi s : Int) : Prop :=
  IsDate y m d ∧ IsTime h mi s ∧
  ∃ b e, Begins y b ∧ Ends y e ∧
    ((b ≤ t ∧ t < e ∧ ((Ingest.ordinal y m d * 24 + h + 7) * 60 + mi) * 60 + s = t) ∨
     (¬ (b ≤ t ∧ t < e) ∧ ((Ingest.ordinal y m d * 24 + h + 8) * 60 + mi) * 60 + s = t))

/-- the first hour after the end of daylight saving time: the clocks show what they showed before -/
def RepeatedHour (y t : Int) : Prop := ∃ e, Ends y e ∧ e ≤ t ∧ t < e + 3600

/-! ### tables in HDF5 files -/

/-- the table that was saved: name and values, group by group -/
def saved (f : Ingest.Hdf) : List (String × Ingest.Column) := f.blocks.flatten

/-- what pandas writes: the names of `axis0` are those of the groups, each once -/
def Wellformed (f : Ingest.Hdf) : Prop := f.axis0.Nodup ∧ ((saved f).map Prod.fst).Perm f.axis0

end Beep.Spec.Ingest
