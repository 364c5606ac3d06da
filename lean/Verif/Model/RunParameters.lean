import Verif.Model.Ingest
/-
Structuring parameters of a run, from the parameter file of its project and from its raw data:
`beep/deprecated/parameters_lookup.py`.
-/
namespace Beep.RunParameters
open Beep Text Pandas

/-- a cell of a parameter file: a number of a column of integers, a number of a column of floats
(`none` is NaN), or a text (parameters_lookup.py:65-104, 107-210) -/
inductive Cell where
  | int (n : Int)
  | num (v : Option Rat)
  | text (s : String)
  deriving DecidableEq, Repr

/-- the number in a cell.  Texts in columns of numbers are not modelled, they count as NaN
(parameters_lookup.py:65-104, 107-210). -/
def Cell.value : Cell → Option Rat
  | .int n => some n
  | .num v => v
  | .text _ => none

/-- `==` of pandas: NaN equals nothing (parameters_lookup.py:107-210) -/
def Cell.same : Cell → Cell → Bool
  | .text a, .text b => a == b
  | a, b => match a.value, b.value with
    | some x, some y => x == y
    | _, _ => false

/-- a row of a parameter file; all rows of a file have the same columns
(parameters_lookup.py:65-104, 107-210) -/
structure Row where
  seq : Int
  vals : Dict String Cell
  deriving DecidableEq, Repr

/-- `{...}.issubset(run_parameter.columns)` (parameters_lookup.py:107-210) -/
def hasAll (r : Row) (names : List String) : Bool := names.all (fun n => Dict.has r.vals n)

/-- `run_parameter[name].iloc[0]` (parameters_lookup.py:107-210) -/
def cell (r : Row) (name : String) : Except Err Cell :=
  match Dict.get? r.vals name with
  | some c => .ok c
  | none => .error .keyError

/-- a column of the whole file, as numbers (parameters_lookup.py:107-210) -/
def column (rows : List Row) (name : String) : List (Option Rat) :=
  rows.map (fun r => (Dict.get? r.vals name).bind Cell.value)

/-- the raw data: `cycle_index` and `step_index` of each row (parameters_lookup.py:107-210) -/
abbrev Raw := List (Int × Int)

/-- `raw_data[raw_data.cycle_index == c].step_index.unique()` (parameters_lookup.py:107-210) -/
def stepsOf (d : Raw) (c : Int) : List Int := unique ((d.filter (fun x => x.1 = c)).map Prod.snd)

/-- parameters_lookup.py:163-172, 184-187: the numbers of steps of five cycles in a row -/
def pattern (d : Raw) (c : Int) : List Nat := (List.range 5).map (fun i : Nat => (stepsOf d (c + (i : Int))).length)

/-- `set(a) == set(b)` (parameters_lookup.py:107-210) -/
def sameSet (a b : List Int) : Bool := a.all (fun x => b.contains x) && b.all (fun x => a.contains x)

/-- `raw_data.cycle_index.max()`; only used when there are rows (parameters_lookup.py:107-210) -/
def lastCycle (d : Raw) : Int :=
  match d with
  | [] => 0
  | x :: xs => xs.foldl (fun m y => max m y.1) x.1

/-- parameters_lookup.py:188-195: is the cycle taken as the start of a diagnostic; `second` is where the
second one is expected -/
def isStart (d : Raw) (second c : Int) : Bool :=
  if sameSet (stepsOf d c) (stepsOf d 1) || sameSet (stepsOf d c) (stepsOf d second) then true
  else decide (c ≥ lastCycle d - 5 - 1) && (pattern d c == pattern d 1 || pattern d c == pattern d second)

/-- parameters_lookup.py:180-195: `diagnostic_starts_at` -/
def startsAt (d : Raw) (second : Int) : List Int :=
  (unique (d.map Prod.fst)).filter (isStart d second)

/-- the dictionary `diagnostic_available` (parameters_lookup.py:197-203) -/
structure Available where
  parameterSet : Cell
  cycleType : List String
  length : Nat
  startsAt : List Int
  deriving DecidableEq, Repr

/-- what `determine_structuring_parameters` takes and returns; `diagnostic = none` is `False`
(parameters_lookup.py:107-210) -/
structure Params where
  vRange : Option (Option Rat × Option Rat) := none
  resolution : Int := 1000
  nominal : Cell := .num (some (11 / 10))
  fullFastCharge : Rat := 4 / 5
  diagnostic : Option Available := none
  deriving DecidableEq, Repr

/-- parameters_lookup.py:155-203: the diagnostics, if the file has the columns and the run has HPPC and RPT
diagnostics.  `range` does not take floats. -/
def diagnostics (d : Raw) (r : Row) : Except Err (Option Available) :=
  if hasAll r ["diagnostic_type", "diagnostic_start_cycle", "diagnostic_interval"] then
    match cell r "diagnostic_type" with
    | .error e => .error e
    | .ok t =>
      if t = .text "HPPC+RPT" then
        match cell r "diagnostic_start_cycle" with
        | .error e => .error e
        | .ok (.int start) => match cell r "diagnostic_parameter_set" with
          | .error e => .error e
          | .ok set => .ok (some ⟨set, ["reset", "hppc", "rpt_0.2C", "rpt_1C", "rpt_2C"], 5,
              startsAt d (1 + start + 5)⟩)
        | .ok _ => .error .typeError
      else .ok none
  else .ok none

/-- `determine_structuring_parameters`, parameters_lookup.py:107-210.  `dir` is the directory with the
parameter files, `none` if it does not exist; `path` is the path of the raw file. -/
def determine (dir : Option (List (Str × List Row))) (path : Str) (d : Raw) (a : Params) : Except Err Params :=
  match dir with
  | none => .error .fileNotFound
  | some dir => match Ingest.lookup Row.seq dir path with
    | .error e => .error e
    | .ok (some (r :: _, all)) =>
      match diagnostics d r with
      | .error e => .error e
      | .ok diag =>
        .ok { a with
          nominal := (Dict.get? r.vals "capacity_nominal").getD a.nominal
          vRange := if hasAll r ["discharge_cutoff_voltage", "charge_cutoff_voltage"] then
              some (minN (column all "discharge_cutoff_voltage"), maxN (column all "charge_cutoff_voltage"))
            else a.vRange
          diagnostic := diag }
    | .ok _ => .ok { a with diagnostic := none }

/-- `get_diagnostic_parameters`, parameters_lookup.py:65-104: the voltage limits of the diagnostic cycles.
A file is a list of rows, all with a parameter set; other missing columns raise a `KeyError`. -/
def limits (dir : List (Str × List (Dict String Cell))) (project : Str) (set : Cell) : Except Err (Cell × Cell) :=
  match Ingest.globPrefix project dir with
  | [] => .ok (.num (some (27 / 10)), .num (some (42 / 10)))
  | [f] =>
    match f.2.find? (fun r => (Dict.get? r "diagnostic_parameter_set").any (·.same set)) with
    | none => .error .indexError
    | some r =>
      match Dict.get? r "diagnostic_discharge_cutoff_voltage", Dict.get? r "diagnostic_charge_cutoff_voltage" with
      | some lo, some hi => .ok (lo, hi)
      | _, _ => .error .keyError
  | _ => .error .assertionError

end Beep.RunParameters
