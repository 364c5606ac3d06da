import Verif.Model.Py
/-
How the readers of raw files name their columns and what number types they store them in
(beep/structure/arbin.py, maccor.py, neware.py, battery_archive.py with the tables of
beep/conversion_schemas), and the number types of structured results (beep/structure/base.py
`_cast_dtypes`).
A number read from a file is the exact value of the double that `read_csv` parsed.
-/
namespace Beep.Casts
open Beep

/-! ### Cells and number types -/

/-- a cell of a table read by `pd.read_csv` (arbin.py:45, maccor.py:85): NaN, a number, an infinite
number (only after a cast), or text -/
inductive Cell where
  | nan
  | num (q : Rat)
  | inf (negative : Bool)
  | text (s : String)
  deriving DecidableEq

/-- the number types named in beep/conversion_schemas/*.yaml (`data_types`), structured_dtypes.yaml
and battery_archive.py:44-55 -/
inductive DType where
  | int (bits : Nat)
  | uint (bits : Nat)
  | float16
  | float32
  | float64
  | str
  | category
  deriving DecidableEq

/-- a binary floating-point format (the types of arbin_conversion.yaml:39-54 and
maccor_conversion.yaml:50-84): the number of significant bits, the exponents of the smallest
and largest normal numbers -/
structure Fmt where
  bits : Nat
  emin : Int
  emax : Int

/-- numpy's `float16` (maccor_conversion.yaml:69-83) -/
def half : Fmt := ⟨11, -14, 15⟩
/-- numpy's `float32` (arbin_conversion.yaml:42-54) -/
def single : Fmt := ⟨24, -126, 127⟩

/-- the power of two that scales a significand (the casts of arbin.py:51 and maccor.py:87) -/
def pow2 : Int → Rat
  | .ofNat n => ((2 ^ n : Nat) : Rat)
  | .negSucc n => 1 / ((2 ^ (n + 1) : Nat) : Rat)

/-- the magnitude of a number (the casts of arbin.py:51 and maccor.py:87) -/
def mag (x : Rat) : Rat := if 0 ≤ x then x else -x

/-- the binary exponent of a number (the casts of arbin.py:51 and maccor.py:87) -/
def expo (x : Rat) : Int :=
  let e : Int := (Nat.log2 x.num.natAbs : Int) - (Nat.log2 x.den : Int)
  if pow2 e ≤ mag x then e else e - 1

/-- rounding to an integer, half to even (the casts of arbin.py:51 and maccor.py:87) -/
def rne (x : Rat) : Int :=
  let f := x.floor
  if x - (f : Rat) < 1 / 2 then f
  else if 1 / 2 < x - (f : Rat) then f + 1
  else if f % 2 = 0 then f else f + 1

/-- conversion of a double to a narrower format (the casts of arbin.py:51, maccor.py:87,
neware.py:107, battery_archive.py:113): rounded to the last place, infinite when too large -/
def toFmt (m : Fmt) (x : Rat) : Cell :=
  if x = 0 then .num 0
  else
    let ulp := pow2 (max (expo x) m.emin - ((m.bits : Int) - 1))
    let r := (rne (x / ulp) : Rat) * ulp
    if pow2 (m.emax + 1) ≤ mag r then .inf (decide (x < 0)) else .num r

/-- conversion to an integer drops the fraction (the casts of arbin.py:51, maccor.py:87) -/
def trunc (x : Rat) : Int := if 0 ≤ x then x.floor else -((-x).floor)

/-- `astype` of one cell (arbin.py:51, maccor.py:87, neware.py:107, battery_archive.py:113,
base.py:1254). Integers wrap around; a missing number or a text has no integer value. Simplified: a
text in a column of numbers is refused even if it spells a number, a number made text (`str`) keeps
its value, and an integer type given a fractional number out of range wraps as well (numpy leaves
that case open). -/
def castCell : DType → Cell → Except Err Cell
  | .int b, .num q => .ok (.num ((trunc q).bmod (2 ^ b)))
  | .uint b, .num q => .ok (.num ((trunc q) % (2 ^ b : Int)))
  | .int _, _ => .error .valueError
  | .uint _, _ => .error .valueError
  | .float16, .num q => .ok (toFmt half q)
  | .float32, .num q => .ok (toFmt single q)
  | .float16, .text _ => .error .valueError
  | .float32, .text _ => .error .valueError
  | .float64, .text _ => .error .valueError
  | .str, .nan => .ok (.text "nan")
  | _, c => .ok c

/-! ### Tables -/

/-- a table with its columns in order (arbin.py:45, maccor.py:85); names may repeat -/
abbrev Frame := List (String × List Cell)

/-- the names of the columns (arbin.py:49 `column in data`) -/
def names (f : Frame) : List String := f.map Prod.fst

/-- cells in order, the first error ends the cast (arbin.py:51, maccor.py:87) -/
def castColumn (d : DType) : List Cell → Except Err (List Cell)
  | [] => .ok []
  | c :: cs =>
    match castCell d c with
    | .error e => .error e
    | .ok c' =>
      match castColumn d cs with
      | .error e => .error e
      | .ok cs' => .ok (c' :: cs')

/-- `data[column] = data[column].astype(dtype)` (arbin.py:51, battery_archive.py:113): all columns of that name -/
def castNamed (c : String) (d : DType) : Frame → Except Err Frame
  | [] => .ok []
  | p :: f =>
    match (if p.1 = c then castColumn d p.2 else .ok p.2) with
    | .error e => .error e
    | .ok cells =>
      match castNamed c d f with
      | .error e => .error e
      | .ok f' => .ok ((p.1, cells) :: f')

/-- the columns of a type table are cast one after the other (arbin.py:48-51, maccor.py:87) -/
def castAll : List (String × DType) → Frame → Except Err Frame
  | [], f => .ok f
  | (c, d) :: ts, f =>
    match castNamed c d f with
    | .error e => .error e
    | .ok f' => castAll ts f'

/-- `data.astype(types)` (maccor.py:87, neware.py:107): refused when a listed column is absent -/
def astype (ts : List (String × DType)) (f : Frame) : Except Err Frame :=
  if ts.all (fun t => (names f).contains t.1) then castAll ts f else .error .keyError

/-- `data[column].isnull().values.any()` (arbin.py:50, battery_archive.py:112) -/
def hasNull (c : String) (f : Frame) : Bool :=
  f.any (fun p => decide (p.1 = c) && p.2.any (fun x => decide (x = .nan)))

/-- arbin.py:48-51, battery_archive.py:110-113: absent columns and columns with a missing value are left as they are -/
def castComplete : List (String × DType) → Frame → Except Err Frame
  | [], f => .ok f
  | (c, d) :: ts, f =>
    if hasNull c f then castComplete ts f
    else
      match castNamed c d f with
      | .error e => .error e
      | .ok f' => castComplete ts f'

/-- base.py:1248-1254 `_cast_dtypes`: the types of the columns that are present -/
def castAvailable (ts : List (String × DType)) (f : Frame) : Except Err Frame :=
  astype (ts.filter (fun t => (names f).contains t.1)) f

/-- one entry of a name table (arbin.py:53, maccor.py:88) -/
def newName (t : List (String × String)) (n : String) : String :=
  match t.find? (fun p => decide (p.1 = n)) with
  | some p => p.2
  | none => n

/-- `data.rename(table, axis="columns")` (arbin.py:53, maccor.py:88, neware.py:109, battery_archive.py:102) -/
def rename (t : List (String × String)) (f : Frame) : Frame := f.map (fun p => (newName t p.1, p.2))

/-- `data.rename(str.lower, axis="columns")` (arbin.py:46, maccor.py:86). Simplified: only the
letters A-Z have a lower case. -/
def lowerNames (f : Frame) : Frame := f.map (fun p => (String.ofList (lower p.1), p.2))

/-! ### Tables of names and types -/

/-- arbin_conversion.yaml:23-38 `data_columns` -/
def arbinNames : List (String × String) :=
  [("data_point", "data_point"), ("test_time", "test_time"), ("datetime", "date_time"), ("step_time", "step_time"),
   ("step_index", "step_index"), ("cycle_index", "cycle_index"), ("current", "current"), ("voltage", "voltage"),
   ("charge_capacity", "charge_capacity"), ("discharge_capacity", "discharge_capacity"),
   ("charge_energy", "charge_energy"), ("discharge_energy", "discharge_energy"), ("dv/dt", "_dv/dt"),
   ("internal_resistance", "internal_resistance"), ("temperature", "temperature")]

/-- arbin_conversion.yaml:39-54 `data_types` -/
def arbinTypes : List (String × DType) :=
  [("data_point", .int 32), ("test_time", .float64), ("datetime", .float32), ("step_time", .float32),
   ("step_index", .int 16), ("cycle_index", .int 32), ("current", .float32), ("voltage", .float32),
   ("charge_capacity", .float64), ("discharge_capacity", .float64), ("charge_energy", .float64),
   ("discharge_energy", .float64), ("dv/dt", .float32), ("internal_resistance", .float32), ("temperature", .float32)]

/-- maccor_conversion.yaml:13-49 `data_columns` -/
def maccorNames : List (String × String) :=
  [("rec#", "data_point"), ("cyc#", "cycle_index"), ("step", "step_index"), ("test (sec)", "test_time"),
   ("step (sec)", "step_time"), ("amp-hr", "_capacity"), ("watt-hr", "_energy"), ("amps", "current"),
   ("volts", "voltage"), ("state", "_state"), ("es", "_ending_status"), ("dpt time", "date_time"),
   ("acimp/ohms", "ac_impedence"), ("dcir/ohms", "internal_resistance"), ("wf chg cap", "_wf_chg_cap"),
   ("wf dis cap", "_wf_dis_cap"), ("wf chg e", "_wf_chg_e"), ("wf dis e", "_wf_dis_e"), ("range", "_range"),
   ("var1", "_var1"), ("var2", "_var2"), ("var3", "_var3"), ("var4", "_var4"), ("var5", "_var5"),
   ("var6", "_var6"), ("var7", "_var7"), ("var8", "_var8"), ("var9", "_var9"), ("var10", "_var10"),
   ("var11", "_var11"), ("var12", "_var12"), ("var13", "_var13"), ("var14", "_var14"), ("var15", "_var15")]

/-- maccor_conversion.yaml:50-84 `data_types` -/
def maccorTypes : List (String × DType) :=
  [("rec#", .int 32), ("cyc#", .int 32), ("step", .int 16), ("test (sec)", .float64), ("step (sec)", .float32),
   ("amp-hr", .float64), ("watt-hr", .float64), ("amps", .float32), ("volts", .float32), ("state", .category),
   ("es", .category), ("acimp/ohms", .float32), ("dcir/ohms", .float32), ("wf chg cap", .float32),
   ("wf dis cap", .float32), ("wf chg e", .float32), ("wf dis e", .float32), ("range", .uint 8),
   ("var1", .float16), ("var2", .float16), ("var3", .float16), ("var4", .float16), ("var5", .float16),
   ("var6", .float16), ("var7", .float16), ("var8", .float16), ("var9", .float16), ("var10", .float16),
   ("var11", .float16), ("var12", .float16), ("var13", .float16), ("var14", .float16), ("var15", .float16),
   ("dpt time", .str)]

/-- neware_conversion.yaml:2-26 `data_columns` -/
def newareNames : List (String × String) :=
  [("Record ID", "data_point"), ("test_time", "test_time"), ("Realtime", "date_time"),
   ("Time(h:min:s.ms)", "step_time"), ("Step ID", "step_index"), ("Cycle ID", "cycle_index"),
   ("Current(mA)", "current"), ("Voltage(V)", "voltage"), ("Capacitance_Chg(mAh)", "charge_capacity"),
   ("Capacitance_DChg(mAh)", "discharge_capacity"), ("Engy_Chg(mWh)", "charge_energy"),
   ("Engy_DChg(mWh)", "discharge_energy"), ("DCIR(O)", "internal_resistance"), ("Capacity(mAh)", "_capacity(mAh)"),
   ("Capacity Density(mAh/g)", "_capacity_density(mAh/g)"), ("Energy(mWh)", "_energy(mWh)"),
   ("CmpEng(mWh/g)", "_cmpeng(mWh/g)"), ("Min-T(C)", "_min-T(C)"), ("Max-T(C)", "_max-T(C)"),
   ("Avg-T(C)", "_avg-T(C)"), ("Power(mW)", "_power(mW)"), ("dQ/dV(mAh/V)", "_dQ/dV(mAh/V)"),
   ("dQm/dV(mAh/V.g)", "_dQm/dV(mAh/V.g)"), ("Temperature(C)", "temperature")]

/-- neware_conversion.yaml:27-40 `data_types` -/
def newareTypes : List (String × DType) :=
  [("Record ID", .int 32), ("test_time", .float64), ("Time(h:min:s.ms)", .float32), ("Step ID", .int 16),
   ("Cycle ID", .int 32), ("Current(mA)", .float32), ("Voltage(V)", .float32), ("Capacitance_Chg(mAh)", .float64),
   ("Capacitance_DChg(mAh)", .float64), ("Engy_Chg(mWh)", .float64), ("Engy_DChg(mWh)", .float64),
   ("DCIR(O)", .float32), ("Temperature(C)", .float32)]

/-- battery_archive.py:27-38 `COLUMN_MAPPING` -/
def archiveNames : List (String × String) :=
  [("test_time (s)", "test_time"), ("cycle_index", "cycle_index"), ("current (a)", "current"),
   ("voltage (v)", "voltage"), ("charge_capacity (ah)", "charge_capacity"),
   ("discharge_capacity (ah)", "discharge_capacity"), ("charge_energy (wh)", "charge_energy"),
   ("discharge_energy (wh)", "discharge_energy"), ("cell_temperature (c)", "temperature"), ("date_time", "date_time")]

/-- battery_archive.py:43-54 `DATA_TYPES` -/
def archiveTypes : List (String × DType) :=
  [("test_time", .float64), ("cycle_index", .int 32), ("current", .float32), ("voltage", .float32),
   ("charge_capacity", .float64), ("discharge_capacity", .float64), ("charge_energy", .float64),
   ("discharge_energy", .float64), ("temperature", .float32), ("date_time", .float32)]

/-! ### Readers -/

/-- arbin.py:45 `pd.read_csv(path, index_col=0)`: the first column becomes the index and is no column any more -/
def dropIndex (f : Frame) : Frame := f.drop 1

/-- arbin.py:73-74 `utcfromtimestamp(x)`: the instant in microseconds since 1970, rounded half to
even; NaN and infinite times have no instant (ValueError, OverflowError), a text is refused.
Simplified: the range of years is not limited; the instant stands for its text. -/
def instant : Cell → Except Err Cell
  | .num q => .ok (.num (rne (q * 1000000)))
  | .nan => .error .valueError
  | .inf _ => .error .valueError
  | .text _ => .error .typeError

/-- arbin.py:72-75: the instants of the column -/
def instants : List Cell → Except Err (List Cell)
  | [] => .ok []
  | c :: cs =>
    match instant c with
    | .error e => .error e
    | .ok i =>
      match instants cs with
      | .error e => .error e
      | .ok is => .ok (i :: is)

/-- arbin.py:72 `data["date_time"]`. Simplified: the first column of that name -/
def column (f : Frame) (n : String) : Except Err (List Cell) :=
  match f.find? (fun p => decide (p.1 = n)) with
  | some p => .ok p.2
  | none => .error .keyError

/-- arbin.py:45-53: the table with its standard names -/
def arbinTable (f : Frame) : Except Err Frame :=
  match castComplete arbinTypes (lowerNames (dropIndex f)) with
  | .error e => .error e
  | .ok g => .ok (rename arbinNames g)

/-- arbin.py:45-75: the table with the instants of its rows -/
def arbinRead (f : Frame) : Except Err (Frame × List Cell) :=
  match arbinTable f with
  | .error e => .error e
  | .ok g =>
    match column g "date_time" with
    | .error e => .error e
    | .ok ts =>
      match instants ts with
      | .error e => .error e
      | .ok is => .ok (g, is)

/-- maccor.py:85-91: the table with its standard names. Making `_state` text changes only missing
states, which read "nan". -/
def maccorTable (f : Frame) : Except Err Frame :=
  match astype maccorTypes (lowerNames f) with
  | .error e => .error e
  | .ok g => castNamed "_state" .str (rename maccorNames g)

/-- neware.py:107-109: the table with its standard names (names are not lowered) -/
def newareTable (f : Frame) : Except Err Frame :=
  match astype newareTypes f with
  | .error e => .error e
  | .ok g => .ok (rename newareNames g)

/-- battery_archive.py:75-113: the columns of the file; the temperature of the room is dropped.
Simplified: the columns derived in between (`step_index`, `step_time`) are left out, and the times
are given as the numbers that line 107 puts in their place. -/
def archiveTable (f : Frame) : Except Err Frame :=
  castComplete archiveTypes (rename archiveNames
    ((lowerNames f).filter (fun p => !decide (p.1 = "environment_temperature (c)"))))

/-! ### Structured results -/

/-- structured_dtypes.yaml:1-13 `cycles_interpolated` -/
def interpolatedTypes : List (String × DType) :=
  [("test_time", .float64), ("cycle_index", .int 32), ("current", .float32), ("voltage", .float32),
   ("temperature", .float32), ("internal_resistance", .float32), ("charge_capacity", .float32),
   ("discharge_capacity", .float32), ("charge_energy", .float32), ("discharge_energy", .float32),
   ("step_type", .category), ("step_index", .int 16)]

/-- structured_dtypes.yaml:15-34 `summary` (`object` leaves a column as it is, like `category`) -/
def summaryTypes : List (String × DType) :=
  [("cycle_index", .int 32), ("discharge_capacity", .float64), ("charge_capacity", .float64),
   ("discharge_energy", .float64), ("charge_energy", .float64), ("dc_internal_resistance", .float32),
   ("temperature_maximum", .float32), ("temperature_average", .float32), ("temperature_minimum", .float32),
   ("date_time_iso", .category), ("energy_efficiency", .float32), ("charge_throughput", .float32),
   ("energy_throughput", .float32), ("charge_duration", .float32), ("time_temperature_integrated", .float64),
   ("paused", .int 32), ("CV_time", .float32), ("CV_current", .float32), ("CV_capacity", .float32)]

/-- structured_dtypes.yaml:36-51 `diagnostic_summary` -/
def diagnosticSummaryTypes : List (String × DType) :=
  [("discharge_capacity", .float64), ("charge_capacity", .float64), ("discharge_energy", .float64),
   ("charge_energy", .float64), ("temperature_maximum", .float32), ("temperature_average", .float32),
   ("temperature_minimum", .float32), ("date_time_iso", .category), ("cycle_index", .int 32),
   ("coulombic_efficiency", .float64), ("paused", .int 32), ("cycle_type", .category), ("CV_time", .float32),
   ("CV_current", .float32), ("CV_capacity", .float32)]

/-- structured_dtypes.yaml:53-69 `diagnostic_interpolated` -/
def diagnosticTypes : List (String × DType) :=
  [("voltage", .float32), ("current", .float32), ("charge_capacity", .float64), ("discharge_capacity", .float64),
   ("charge_energy", .float64), ("discharge_energy", .float64), ("internal_resistance", .float32),
   ("temperature", .float32), ("test_time", .float64), ("cycle_index", .int 32), ("cycle_type", .category),
   ("step_index", .int 16), ("step_index_counter", .int 16), ("step_type", .category), ("discharge_dQdV", .float32),
   ("charge_dQdV", .float32)]

end Beep.Casts
