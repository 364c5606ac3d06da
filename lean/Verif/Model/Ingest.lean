import Verif.Model.Text
import Verif.Model.Batch
import Verif.Model.Pandas
/-
Reading of names, headers, time stamps and columns: `beep/deprecated/parameters_lookup.py`,
`beep/structure/maccor.py`, `beep/structure/indigo.py`.
-/
namespace Beep.Ingest
open Beep Text Pandas

/-! ### parameters_lookup -/

/-- `get_project_sequence`, parameters_lookup.py:14-28: the file name up to the first dot, split at
underscores -/
def projectSequence (path : Str) : List Str :=
  match splitC '.' (Batch.basename path) with
  | [] => []
  | name :: _ => splitC '_' name

/-- value of decimal digits (parameters_lookup.py:14-28) -/
def digitsValue : Nat → Str → Option Nat
  | acc, [] => some acc
  | acc, c :: cs => if c.isDigit then digitsValue (10 * acc + (c.toNat - '0'.toNat)) cs else none

/-- `int(s)` for plain decimal digits; signs, blanks and underscores between digits are refused
(simplification) (parameters_lookup.py:14-28) -/
def parseInt (s : Str) : Except Err Int :=
  match s with
  | [] => .error .valueError
  | _ => match digitsValue 0 s with
    | none => .error .valueError
    | some n => .ok n

/-- a row of a parameter file: its `seq_num` and the other columns (parameters_lookup.py:31-62) -/
structure PRow where
  seq : Int
  vals : Dict String Rat
  deriving DecidableEq, Repr

/-- `glob(os.path.join(path, project + "*"))`: names that begin with the project; hidden files only
match if the project begins with a dot, which it never does.  Projects with the characters `*`, `?`
and `[` are not modelled (parameters_lookup.py:31-62). -/
def globPrefix {C : Type} (project : Str) (dir : List (Str × C)) : List (Str × C) :=
  dir.filter (fun f => project.isPrefixOf f.1 && !(f.1.head? == some '.'))

/-- `get_protocol_parameters`, parameters_lookup.py:31-62: the rows of the sequence number and all
rows; `none` if there is no file or no such row.  `num` is the column `seq_num`. -/
def lookup {R : Type} (num : R → Int) (dir : List (Str × List R)) (path : Str) :
    Except Err (Option (List R × List R)) :=
  match projectSequence path with
  | [] => .error .indexError
  | project :: rest =>
    match globPrefix project dir with
    | [] => .ok none
    | [f] => match rest with
      | [] => .error .indexError
      | seq :: _ => match parseInt seq with
        | .error e => .error e
        | .ok n =>
          let rows := f.2.filter (fun r => num r = n)
          if rows.isEmpty then .ok none else .ok (some (rows, f.2))
    | _ => .error .assertionError

/-- `get_protocol_parameters`, parameters_lookup.py:31-62, for columns with numbers -/
def protocolParameters (dir : List (Str × List PRow)) (path : Str) : Except Err (Option (List PRow × List PRow)) :=
  lookup PRow.seq dir path

/-! ### the header of a Maccor file -/

/-- `s.split(sep)` for a separator that is not empty: `skip` characters belong to the separator just
found, `cur` is the current piece, reversed (structure/maccor.py:308-331) -/
def splitGo (sep : Str) : Nat → Str → Str → List Str
  | _, cur, [] => [cur.reverse]
  | skip + 1, cur, _ :: xs => splitGo sep skip cur xs
  | 0, cur, x :: xs =>
    if sep.isPrefixOf (x :: xs) then cur.reverse :: splitGo sep (sep.length - 1) [] xs
    else splitGo sep 0 (x :: cur) xs

/-- `s.split(sep)`, structure/maccor.py:326-328 -/
def splitStr (sep s : Str) : List Str := splitGo sep 0 [] s

/-- `init, leftovers = s.split(field)`: exactly two pieces (structure/maccor.py:326-328) -/
def unpack2 (sep s : Str) : Except Err (Str × Str) :=
  match splitStr sep s with
  | [a, b] => .ok (a, b)
  | _ => .error .valueError

/-- the loop of `split_string_by_fields`, maccor.py:324-331 -/
def fieldsLoop (leftovers : Str) : List Str → Except Err (List Str)
  | [] => .ok [leftovers]
  | f :: fs => match unpack2 f leftovers with
    | .error e => .error e
    | .ok (init, rest) => match fieldsLoop rest fs with
      | .error e => .error e
      | .ok vs => .ok (init :: vs)

/-- `split_string_by_fields`, maccor.py:308-331 -/
def splitFields (s : Str) : List Str → Except Err (List Str)
  | [] => .error .indexError
  | f :: fs => match unpack2 f s with
    | .error e => .error e
    | .ok (_, rest) => fieldsLoop rest fs

/-- the fields, maccor.py:259-265 -/
def headerFields : List Str :=
  ["Today's Date".toList, "Date of Test:".toList, "Filename:".toList, "Procedure:".toList, "Comment/Barcode:".toList]

/-- `k.replace(":", "")` (structure/maccor.py:269) -/
def noColon (k : Str) : Str := k.filter (· ≠ ':')

/-- `parse_metadata`, maccor.py:246-272 -/
def parseMetadata (s : Str) : Except Err (List (Str × Str)) :=
  match splitFields s headerFields with
  | .error e => .error e
  | .ok vs => .ok ((headerFields.zip vs).map (fun p => (noColon p.1, strip p.2)))

/-- the channel number, maccor.py:108-113: `int` of the extension without dots.  A path without a
number leaves an entry under a misspelt name. -/
def channel (path : Str) : Str × Option Int :=
  match parseInt ((Batch.splitext (Batch.basename path)).2.filter (· ≠ '.')) with
  | .ok n => ("channel_id".toList, some n)
  | .error _ => ("channnel_id".toList, none)

/-! ### time stamps -/

/-- what is printed in a Maccor file: date and time, a date alone, or something else (text level
abstracted) (structure/maccor.py:275-305) -/
inductive Stamp where
  | full (y m d h mi s : Int)
  | date (y m d : Int)
  | other
  deriving DecidableEq, Repr

/-- proleptic Gregorian calendar (Python `datetime`) (needed for structure/maccor.py:292-305) -/
def isLeap (y : Int) : Bool := decide (y % 4 = 0) && (!(decide (y % 100 = 0)) || decide (y % 400 = 0))

/-- days of the years before `y` (needed for structure/maccor.py:292-305) -/
def daysBeforeYear (y : Int) : Int := 365 * (y - 1) + (y - 1) / 4 - (y - 1) / 100 + (y - 1) / 400

/-- days of February, needed for structure/maccor.py:292-305 -/
def feb (y : Int) : Int := if isLeap y then 29 else 28

/-- days of the months before `m` (needed for structure/maccor.py:292-305) -/
def daysBeforeMonth (y m : Int) : Int :=
  if m = 1 then 0 else if m = 2 then 31
  else feb y + (if m = 3 then 31 else if m = 4 then 62 else if m = 5 then 92 else if m = 6 then 123
    else if m = 7 then 153 else if m = 8 then 184 else if m = 9 then 215 else if m = 10 then 245
    else if m = 11 then 276 else 306)

/-- days of a month, needed for structure/maccor.py:292-305 -/
def daysInMonth (y m : Int) : Int :=
  if m = 2 then feb y else if m = 4 ∨ m = 6 ∨ m = 9 ∨ m = 11 then 30 else 31

/-- `date.toordinal()` (needed for structure/maccor.py:292-305) -/
def ordinal (y m d : Int) : Int := daysBeforeYear y + daysBeforeMonth y m + d

/-- what `strptime` and `datetime` accept (structure/maccor.py:292, 300) -/
def validStamp (y m d h mi s : Int) : Bool :=
  decide (1 ≤ y ∧ y ≤ 9999 ∧ 1 ≤ m ∧ m ≤ 12 ∧ 1 ≤ d ∧ d ≤ daysInMonth y m ∧
    0 ≤ h ∧ h ≤ 23 ∧ 0 ≤ mi ∧ mi ≤ 59 ∧ 0 ≤ s ∧ s ≤ 59)

/-- seconds of a local time, counted from day 0 (needed for structure/maccor.py:292-305) -/
def seconds (y m d h mi s : Int) : Int := ordinal y m d * 86400 + h * 3600 + mi * 60 + s

/-- the first Sunday on or after a day (day 7 is a Sunday)
(needed for structure/maccor.py:292-305) -/
def sundayFrom (day : Int) : Int := day + (-day) % 7

/-- US/Pacific since 2007: from 2:00 on the second Sunday of March, in local standard time
(needed for structure/maccor.py:292-305) -/
def dstStart (y : Int) : Int := (sundayFrom (ordinal y 3 1) + 7) * 86400 + 7200

/-- until 2:00 on the first Sunday of November, in local daylight time
(needed for structure/maccor.py:292-305) -/
def dstEnd (y : Int) : Int := sundayFrom (ordinal y 11 1) * 86400 + 7200

/-- `pacific.localize(t, is_dst=True).astimezone(utc)`: a time that exists twice is daylight time, and
so is one that does not exist.  Rules before 2007 are not modelled (structure/maccor.py:292-305). -/
def toUtc (y m d h mi s : Int) : Int :=
  let t := seconds y m d h mi s
  if dstStart y ≤ t ∧ t < dstEnd y then t + 7 * 3600 else t + 8 * 3600

/-- `correct_timestamp`, maccor.py:275-305: seconds in UTC -/
def correctTimestamp : Stamp → Except Err Int
  | .full y m d h mi s => if validStamp y m d h mi s then .ok (toUtc y m d h mi s) else .error .valueError
  | .date y m d => if validStamp y m d 0 0 0 then .ok (toUtc y m d 0 0 0) else .error .valueError
  | .other => .error .valueError

/-! ### Indigo files -/

/-- a column: its values by row (structure/indigo.py:21-100) -/
abbrev Column := List Rat

/-- a table in an HDF5 file written by pandas: the names in the order of the table (`axis0`), and the
columns grouped by type, each group with the names of its columns (structure/indigo.py:21-100) -/
structure Hdf where
  axis0 : List String
  blocks : List (List (String × Column))
  deriving DecidableEq, Repr

/-- the table as `IndigoDatapath.from_file` reads it, indigo.py:33-50: the values of three groups one
after the other under the names of `axis0`.  A missing group gives an array without dimensions, which
cannot be concatenated. -/
def readTable (f : Hdf) : Except Err (List (String × Column)) :=
  match f.blocks with
  | b0 :: b1 :: b2 :: _ =>
    let cols := (b0 ++ b1 ++ b2).map Prod.snd
    if cols.length = f.axis0.length then .ok (f.axis0.zip cols) else .error .valueError
  | _ => .error .valueError

/-- a row of the table, as far as it is used (structure/indigo.py:21-100) -/
structure IndigoRow where
  halfCycle : Int
  coulomb : Rat
  energyJ : Rat
  volt : Rat
  curr : Rat
  deriving DecidableEq, Repr

/-- the derived columns of a row, structure/indigo.py:21-100 -/
structure IndigoOut where
  chargeCapacity : Rat
  dischargeCapacity : Rat
  chargeEnergy : Rat
  dischargeEnergy : Rat
  deriving DecidableEq, Repr

/-- the derived columns, indigo.py:68-84 -/
def indigoRow (r : IndigoRow) : IndigoOut :=
  if r.halfCycle % 2 = 1 then ⟨absR r.coulomb / 3600, 0, absR r.energyJ, 0⟩
  else ⟨0, absR r.coulomb / 3600, 0, absR r.energyJ⟩

/-- one cell per file, indigo.py:53-54 -/
def indigo (ids : List Int) (rows : List IndigoRow) : Except Err (Int × List IndigoOut) :=
  match ids with
  | [] => .error .indexError
  | c :: _ => if (unique ids).length > 1 then .error .valueError else .ok (c, rows.map indigoRow)

end Beep.Ingest
