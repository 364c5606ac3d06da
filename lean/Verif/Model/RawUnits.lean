import Verif.Model.Casts
import Verif.Model.Text
import Verif.Model.Parsers
/-
Units of raw columns: beep/structure/neware.py 76-138 and the columns of Novonix files
(beep/structure/novonix.py 75-91 with novonix_conversion.yaml:2-41).
-/
namespace Beep.RawUnits
open Beep Text Casts

/-! ### Neware -/

/-- the value of decimal digits (neware.py:136 `float(…)`) -/
def digits : Nat → Str → Option Nat
  | n, [] => some n
  | n, c :: s => if '0' ≤ c ∧ c ≤ '9' then digits (10 * n + (c.toNat - '0'.toNat)) s else none

/-- `float(text)` (neware.py:136). Simplified: signs, exponents, underscores, `nan` and `inf` are refused. -/
def decimal (s : Str) : Except Err Rat :=
  match split1 '.' (strip s) with
  | ([], none) => .error .valueError
  | (a, none) => match digits 0 a with
    | some n => .ok n
    | none => .error .valueError
  | ([], some []) => .error .valueError
  | (a, some b) => match digits 0 a, digits 0 b with
    | some n, some m => .ok ((n : Rat) + (m : Rat) / (10 : Rat) ^ b.length)
    | _, _ => .error .valueError

/-- neware.py 123-138 `step_time`: the last three fields count -/
def stepTime (s : Str) : Except Err Rat :=
  match (splitC ':' s).reverse with
  | c :: b :: a :: _ =>
    match decimal a, decimal b, decimal c with
    | .ok h, .ok m, .ok s => .ok (3600 * h + 60 * m + s)
    | _, _, _ => .error .valueError
  | _ => .error .indexError

/-- neware.py:81-83: a time that is no text has no method `split` -/
def timeCell : Cell → Except Err Cell
  | .text s => match stepTime s.toList with
    | .ok t => .ok (.num t)
    | .error e => .error e
  | _ => .error .attributeError

/-- `/ 1000` (neware.py:84-88) -/
def milliCell : Cell → Except Err Cell
  | .num q => .ok (.num (q / 1000))
  | .text _ => .error .typeError
  | c => .ok c

/-- cells in order, the first error counts (neware.py:81-88) -/
def mapCells (fn : Cell → Except Err Cell) : List Cell → Except Err (List Cell)
  | [] => .ok []
  | c :: cs =>
    match fn c with
    | .error e => .error e
    | .ok d =>
      match mapCells fn cs with
      | .error e => .error e
      | .ok ds => .ok (d :: ds)

/-- neware.py:91-93: a dash is a missing value -/
def dash (c : Cell) : Cell := if c = .text "\t-" then .nan else c

/-- `fillna(method="ffill")` (neware.py:94); `last` is the last value seen -/
def fillForward (last : Cell) : List Cell → List Cell
  | [] => []
  | .nan :: cs => last :: fillForward last cs
  | c :: cs => c :: fillForward c cs

/-- `fillna(method="bfill")` (neware.py:95) -/
def fillBack (cs : List Cell) : List Cell := (fillForward .nan cs.reverse).reverse

/-- neware.py:91-95: the internal resistances. Simplified: in a column with dashes the numbers are
texts, which are given as the numbers that they spell. -/
def resistances (cs : List Cell) : Except Err (List Cell) := .ok (fillBack (fillForward .nan (cs.map dash)))

/-- `data[name] = …` of a column that must be there (neware.py:81-95) -/
def convert (n : String) (fn : List Cell → Except Err (List Cell)) (f : Frame) : Except Err Frame :=
  if (names f).contains n then go f else .error .keyError
where
  /-- the columns in order -/
  go : Frame → Except Err Frame
    | [] => .ok []
    | p :: f =>
      match (if p.1 = n then fn p.2 else .ok p.2) with
      | .error e => .error e
      | .ok cells =>
        match go f with
        | .error e => .error e
        | .ok g => .ok ((p.1, cells) :: g)

/-- `data[name] = cells` (neware.py:98) -/
def assign (n : String) (cells : List Cell) (f : Frame) : Frame :=
  if (names f).contains n then f.map (fun p => if p.1 = n then (n, cells) else p) else f ++ [(n, cells)]

/-- the columns that are converted, in order (neware.py:81-95) -/
def conversions : List (String × (List Cell → Except Err (List Cell))) :=
  [("Time(h:min:s.ms)", mapCells timeCell), ("Current(mA)", mapCells milliCell),
   ("Capacitance_Chg(mAh)", mapCells milliCell), ("Capacitance_DChg(mAh)", mapCells milliCell),
   ("Engy_Chg(mWh)", mapCells milliCell), ("Engy_DChg(mWh)", mapCells milliCell), ("DCIR(O)", resistances)]

/-- neware.py:81-95, one conversion after the other -/
def convertAll : List (String × (List Cell → Except Err (List Cell))) → Frame → Except Err Frame
  | [], f => .ok f
  | (n, fn) :: cs, f =>
    match convert n fn f with
    | .error e => .error e
    | .ok g => convertAll cs g

/-- the numbers of a column (neware.py:98) -/
def numbers (cs : List Cell) : List Rat := cs.filterMap (fun c => match c with | .num q => some q | _ => none)

/-- neware.py 76-109: the record table in units of beep. Quotients are exact (simplified: they are
doubles). -/
def newareData (f : Frame) : Except Err Frame :=
  match convertAll conversions f with
  | .error e => .error e
  | .ok g =>
    match column g "Time(h:min:s.ms)" with
    | .error e => .error e
    | .ok ts => newareTable (assign "test_time" ((Parsers.testTime (numbers ts)).map Cell.num) g)

/-! ### Novonix -/

/-- novonix_conversion.yaml:2-41 `data_columns`, the names -/
def novonixNames : List (String × String) :=
  [("Date and Time", "date_time"), ("Cycle Number", "cycle_index"), ("Step Type", "step_index"),
   ("Run Time (h)", "test_time"), ("Step Time (h)", "step_time"), ("Current (A)", "current"),
   ("Potential (V)", "voltage"), ("Capacity (Ah)", "capacity"), ("Energy (Wh)", "energy"), ("dIdt (V/h)", "di/dt"),
   ("dVdt (I/h)", "dv/dt"), ("Step Number", "step_num"), ("Step position", "step_position")]

/-- novonix_conversion.yaml:2-41 `data_columns`, the types -/
def novonixTypes : List (String × DType) :=
  [("Date and Time", .str), ("Cycle Number", .int 64), ("Step Type", .int 64), ("Run Time (h)", .float64),
   ("Step Time (h)", .float64), ("Current (A)", .float64), ("Potential (V)", .float64), ("Capacity (Ah)", .float64),
   ("Energy (Wh)", .float64), ("dIdt (V/h)", .float64), ("dVdt (I/h)", .float64), ("Step Number", .int 64),
   ("Step position", .int 64)]

/-- the columns of temperatures (novonix.py:83-89) -/
def novonixHeat : List (String × String) :=
  [("Temperature (°C)", "temperature"), ("Circuit Temperature (°C)", "circuit_temperature")]

/-- novonix.py 75-91: the table with its standard names. The fields, which are texts, are given as
the numbers that they spell. -/
def novonixTable (f : Frame) : Except Err Frame :=
  match castAvailable novonixTypes f with
  | .error e => .error e
  | .ok g =>
    match astype (novonixHeat.map (fun p => (p.1, DType.float64))) (rename novonixNames g) with
    | .error e => .error e
    | .ok k => .ok (rename novonixHeat k)

end Beep.RawUnits
