import Verif.Model.Casts
import Verif.Model.Ingest
/-
The table that the reader of Indigo files returns: numbers, times and names of its records
(beep/structure/indigo.py lines 56-98).  The derived capacities and energies are in `Model/Ingest`.
-/
namespace Beep.IndigoTable
open Beep Beep.Casts

/-- a table with its columns in order, as `Ingest.readTable` gives it (indigo.py:50) -/
abbrev Table := List (String × Ingest.Column)

/-- `data.reset_index()` (indigo.py:61): the index becomes the first column, called `index`, or
`level_0` if there is an `index`; pandas refuses to insert a name twice -/
def resetIndex (index : Ingest.Column) (t : Table) : Except Err Table :=
  let name := if (t.map Prod.fst).contains "index" then "level_0" else "index"
  if (t.map Prod.fst).contains name then .error .valueError else .ok ((name, index) :: t)

/-- the fresh index 0, 1, ... of a table with `n` rows (indigo.py:61) -/
def fresh (n : Nat) : Ingest.Column := (List.range n).map (fun (i : Nat) => ((i : Int) : Rat))

/-- `data.drop(columns=["index"])` (indigo.py:63): refused when there is no such column -/
def dropColumn (c : String) (t : Table) : Except Err Table :=
  if (t.map Prod.fst).contains c then .ok (t.filter (fun p => !decide (p.1 = c))) else .error .keyError

/-- indigo_conversion.yaml:7-19 `data_columns` -/
def columnNames : List (String × String) :=
  [("test_time", "test_time"), ("date_time_iso", "date_time_iso"), ("half_cycle_count", "step_index"),
   ("cycle_count", "cycle_index"), ("cell_current_a", "current"), ("cell_voltage_v", "voltage"),
   ("charge_capacity", "charge_capacity"), ("discharge_capacity", "discharge_capacity"),
   ("charge_energy", "charge_energy"), ("discharge_energy", "discharge_energy"),
   ("internal_resistance", "internal_resistance"), ("cell_temperature_c", "temperature")]

/-- `data.rename(table, axis="columns")` (indigo.py:64, 92) -/
def renamed (names : List (String × String)) (t : Table) : Table := t.map (fun p => (newName names p.1, p.2))

/-- indigo.py:60-64, 92: the columns of the file with the number of the record, under their published
names. Simplified: the derived columns of lines 65-90 are left out. -/
def published (index : Ingest.Column) (t : Table) : Except Err Table :=
  match resetIndex index t with
  | .error e => .error e
  | .ok t1 =>
    match resetIndex (fresh index.length) t1 with
    | .error e => .error e
    | .ok t2 =>
      match dropColumn "index" t2 with
      | .error e => .error e
      | .ok t3 => .ok (renamed columnNames (renamed [("level_0", "data_point")] t3))

/-! ### Times -/

/-- Python's `float` (indigo.py:87) -/
def double : Fmt := ⟨53, -1022, 1023⟩

/-- `datetime.utcfromtimestamp(x / 1000000)` (indigo.py:86-88), in microseconds since 1970: the
quotient is rounded to a double; its fraction is multiplied by a million, rounded to a double and
then half to even (CPython `_PyTime_DoubleToDenominator`). The range of years is not limited; the
instant stands for its text. -/
def instant (x : Rat) : Except Err Int :=
  match toFmt double (x / 1000000) with
  | .num q =>
    match toFmt double ((q - (trunc q : Rat)) * 1000000) with
    | .num p => .ok (trunc q * 1000000 + rne p)
    | _ => .error .valueError
  | _ => .error .valueError

/-- the column `date_time_iso` (indigo.py:86-90) -/
def instants : List Rat → Except Err (List Int)
  | [] => .ok []
  | x :: xs =>
    match instant x with
    | .error e => .error e
    | .ok i =>
      match instants xs with
      | .error e => .error e
      | .ok is => .ok (i :: is)

/-- `data.sort_values(by="system_time_us")["date_time_iso"].iloc[0]` (indigo.py:94-96) -/
def start (times : List Rat) (isos : List Int) : Except Err Int :=
  match Pandas.sortBy (fun a b : Rat × Int => decide (a.1 ≤ b.1)) (times.zip isos) with
  | [] => .error .indexError
  | p :: _ => .ok p.2

/-- the times of the records and the start of the run (indigo.py:86-96) -/
def timed (times : List Rat) : Except Err (List Int × Int) :=
  match instants times with
  | .error e => .error e
  | .ok isos =>
    match start times isos with
    | .error e => .error e
    | .ok s => .ok (isos, s)

end Beep.IndigoTable
