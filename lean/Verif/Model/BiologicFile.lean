import Verif.Model.Text
import Verif.Model.Units
import Verif.Model.Batch
/-
Model of the reader of Biologic exports, beep/structure/biologic.py 20-124 (without time stamps and
metadata).  A file is the list of lines that `readline` returns, decoded, each with its line end.
-/
namespace Beep.BiologicFile
open Beep

/-- the `data_type` of a configured column; anything but "int" and "float" leaves the text
(biologic.py:93-100) -/
inductive Kind where
  | int | float | text
  deriving DecidableEq, Repr

/-- an entry of `BIOLOGIC_CONFIG["data_columns"]` (biologic.py:73, 93-96, 114) -/
structure Column where
  name : Str
  beep : Str
  kind : Kind
  scale : Rat := 1
  deriving DecidableEq, Repr

/-- a value in a column; `num none` is NaN (biologic.py:97-101) -/
inductive Cell where
  | int (z : Int)
  | num (q : Option Rat)
  | text (s : Str)
  deriving DecidableEq, Repr

/-- separator and encoding by extension, biologic.py:37-44 -/
def fileType (path : Str) : Except Err (Char × Str) :=
  if (Batch.splitext (Batch.basename path)).2 = ".csv".toList then .ok (';', "utf-8".toList)
  else if (Batch.splitext (Batch.basename path)).2 = ".txt".toList then .ok ('\t', "iso-8859-1".toList)
  else .error .typeError

/-- the test of biologic.py:51 -/
def isHeader (line : Str) : Bool :=
  containsSub "Ecell/V".toList line && !containsSub "Variables".toList line

/-- the loop of biologic.py:49-56 from line number `i`; the `LookupError` is `keyError`.  After the
end of the file `readline` returns the empty text, which is no header, until the limit is reached. -/
def findHeader (searchLines : Nat) : Nat → List Str → Except Err Nat
  | _, [] => .error .keyError
  | i, l :: ls =>
    if i + 1 > searchLines then .error .keyError
    else if isHeader l then .ok i
    else findHeader searchLines (i + 1) ls

/-- `_get_file_type`, biologic.py:20-58: separator, encoding, header line, first data line -/
def getFileType (path : Str) (lines : List Str) (searchLines : Nat) : Except Err (Char × Str × Nat × Nat) := do
  let t ← fileType path
  let h ← findHeader searchLines 1 lines
  return (t.1, t.2, h, h + 1)

/-- the configured column of a name, biologic.py:93-96 -/
def colOf (cfg : List Column) (name : Str) : Option Column := cfg.find? (fun c => c.name = name)

/-- `int(float(item))`, biologic.py:98, 104; infinities are not modelled -/
def toInt (num : Str → Except Err (Option Rat)) (item : Str) : Except Err Int := do
  match ← num item with
  | some q => return Units.trunc q
  | none => .error .valueError

/-- one item, biologic.py:93-101; `num` is `float(text)` -/
def convert (num : Str → Except Err (Option Rat)) (c : Option Column) (item : Str) : Except Err Cell :=
  match c with
  | none => .ok (.text item)
  | some col =>
    match col.kind with
    | .int => do return .int (← toInt num item)
    | .float => do return .num ((← num item).map (· * col.scale))
    | .text => .ok (.text item)

/-- the items of a line, biologic.py:91-101: each is appended to the list of its column -/
def addRow (num : Str → Except Err (Option Rat)) (cfg : List Column) :
    List Str → Dict Str (List Cell) → List Str → Except Err (Dict Str (List Cell))
  | _, raw, [] => .ok raw
  | [], _, _ :: _ => .error .indexError
  | c :: cs, raw, x :: xs => do
    let v ← convert num (colOf cfg c) x
    addRow num cfg cs (raw.set c ((raw.get? c).getD [] ++ [v])) xs

/-- the lines after the header, biologic.py:85-101 -/
def addRows (num : Str → Except Err (Option Rat)) (cfg : List Column) (columns : List Str) :
    Dict Str (List Cell) → List (List Str) → Except Err (Dict Str (List Cell))
  | raw, [] => .ok raw
  | raw, r :: rs => do addRows num cfg columns (← addRow num cfg columns raw r) rs

/-- the empty lists of the columns, biologic.py:80-84 -/
def emptyRaw (columns : List Str) : Dict Str (List Cell) := columns.foldl (fun d c => d.set c []) []

/-- mapping with early exit (biologic.py:104, 113-115) -/
def mapE {α β : Type} (f : α → Except Err β) : List α → Except Err (List β)
  | [] => .ok []
  | a :: l => do
    let b ← f a
    let bs ← mapE f l
    return b :: bs

/-- `int(float(i))` of a cell that has been read, biologic.py:104 -/
def cellInt (num : Str → Except Err (Option Rat)) : Cell → Except Err Int
  | .int z => .ok z
  | .num (some q) => .ok (Units.trunc q)
  | .num none => .error .valueError
  | .text s => toInt num s

/-- the cycle index without mapping file, biologic.py:103-104 -/
def cycleIndex (num : Str → Except Err (Option Rat)) (columns : List Str) (raw : Dict Str (List Cell)) :
    Except Err (Dict Str (List Cell)) :=
  if "cycle_index".toList ∈ columns then .ok raw
  else
    match raw.get? "cycle number".toList with
    | none => .error .keyError
    | some l => do
      let zs ← mapE (cellInt num) l
      return raw.set "cycle_index".toList (zs.map Cell.int)

/-- `raw[column_name]` for the configured columns, biologic.py:112-114 -/
def pick (raw : Dict Str (List Cell)) : List Column → Except Err (Dict Str (List Cell))
  | [] => .ok []
  | c :: cs =>
    match raw.get? c.name with
    | none => .error .keyError
    | some l => do return (c.beep, l) :: (← pick raw cs)

/-- from the raw columns to the data frame, biologic.py:103-117; columns of different lengths
make no data frame.  The names of the configured columns are distinct, as are their beep names. -/
def frame (num : Str → Except Err (Option Rat)) (cfg : List Column) (columns : List Str)
    (raw : Dict Str (List Cell)) : Except Err (Dict Str (List Cell)) := do
  let raw ← cycleIndex num columns raw
  let data ← pick raw cfg
  match raw.get? "cycle number".toList with
  | none => .error .keyError
  | some l =>
    let points := (List.range l.length).map (fun i : Nat => Cell.int ((i : Int) + 1))
    let data := data.set "data_point".toList points
    if data.all (fun c => c.2.length = l.length) then .ok data else .error .valueError

/-- `from_file` without mapping file, biologic.py:72-117 -/
def fromFile (num : Str → Except Err (Option Rat)) (cfg : List Column) (path : Str) (lines : List Str) :
    Except Err (Dict Str (List Cell)) := do
  let t ← getFileType path lines 200
  let columns := Text.splitC t.1 ((lines[t.2.2.1 - 1]?).getD [])
  let raw ← addRows num cfg columns (emptyRaw columns) ((lines.drop t.2.2.1).map (Text.splitC t.1))
  frame num cfg columns raw

end Beep.BiologicFile
