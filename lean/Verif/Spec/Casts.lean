import Mathlib.Algebra.Order.Field.Rat
import Mathlib.Algebra.Order.Field.Basic
import Verif.Model.Casts
/-
Independent vocabulary for the names and number types of raw data: the published names, binary
floating-point numbers as multiples of powers of two, and nearest numbers.
-/
namespace Beep.Spec.Casts
open Beep Beep.Casts

/-! ### Names -/

/-- `t` is `s` with the letters A-Z replaced by a-z -/
def LowerOf (s t : String) : Prop :=
  List.Forall₂ (fun a b : Char => if 'A' ≤ a ∧ a ≤ 'Z' then b.toNat = a.toNat + 32 else b = a) s.toList t.toList

/-- `b` is the name under which column `a` is published: the listed one, or its own -/
def Published (t : List (String × String)) (a b : String) : Prop :=
  (a, b) ∈ t ∨ ((∀ n, (a, n) ∉ t) ∧ b = a)

/-- what Arbin calls the published columns -/
def arbin : List (String × String) :=
  ["data_point", "test_time", "step_time", "step_index", "cycle_index", "current", "voltage",
   "charge_capacity", "discharge_capacity", "charge_energy", "discharge_energy", "internal_resistance",
   "temperature"].map (fun n => (n, n)) ++ [("datetime", "date_time"), ("dv/dt", "_dv/dt")]

/-- what Maccor calls the published columns; 15 variables and the range become private -/
def maccor : List (String × String) :=
  [("rec#", "data_point"), ("cyc#", "cycle_index"), ("step", "step_index"), ("test (sec)", "test_time"),
   ("step (sec)", "step_time"), ("amps", "current"), ("volts", "voltage"), ("dpt time", "date_time"),
   ("acimp/ohms", "ac_impedence"), ("dcir/ohms", "internal_resistance"), ("amp-hr", "_capacity"),
   ("watt-hr", "_energy"), ("state", "_state"), ("es", "_ending_status"), ("wf chg cap", "_wf_chg_cap"),
   ("wf dis cap", "_wf_dis_cap"), ("wf chg e", "_wf_chg_e"), ("wf dis e", "_wf_dis_e")] ++
  (["range"] ++ (List.range 15).map (fun i => "var" ++ toString (i + 1))).map (fun n => (n, "_" ++ n))

/-- what Neware calls the published columns -/
def neware : List (String × String) :=
  [("Record ID", "data_point"), ("test_time", "test_time"), ("Realtime", "date_time"),
   ("Time(h:min:s.ms)", "step_time"), ("Step ID", "step_index"), ("Cycle ID", "cycle_index"),
   ("Current(mA)", "current"), ("Voltage(V)", "voltage"), ("Capacitance_Chg(mAh)", "charge_capacity"),
   ("Capacitance_DChg(mAh)", "discharge_capacity"), ("Engy_Chg(mWh)", "charge_energy"),
   ("Engy_DChg(mWh)", "discharge_energy"), ("DCIR(O)", "internal_resistance"),
   ("Temperature(C)", "temperature"), ("Capacity(mAh)", "_capacity(mAh)"),
   ("Capacity Density(mAh/g)", "_capacity_density(mAh/g)"), ("Energy(mWh)", "_energy(mWh)"),
   ("CmpEng(mWh/g)", "_cmpeng(mWh/g)"), ("Min-T(C)", "_min-T(C)"), ("Max-T(C)", "_max-T(C)"),
   ("Avg-T(C)", "_avg-T(C)"), ("Power(mW)", "_power(mW)"), ("dQ/dV(mAh/V)", "_dQ/dV(mAh/V)"),
   ("dQm/dV(mAh/V.g)", "_dQm/dV(mAh/V.g)")]

/-- what the Battery Archive calls the published columns -/
def archive : List (String × String) :=
  [("test_time (s)", "test_time"), ("current (a)", "current"), ("voltage (v)", "voltage"),
   ("cell_temperature (c)", "temperature"), ("cycle_index", "cycle_index"), ("date_time", "date_time")] ++
  ["charge_capacity", "discharge_capacity"].map (fun n => (n ++ " (ah)", n)) ++
  ["charge_energy", "discharge_energy"].map (fun n => (n ++ " (wh)", n))

/-! ### Number types -/

/-- kinds of number types a column can be stored in -/
inductive Kind where
  | signed (bits : Nat)
  | unsigned (bits : Nat)
  /-- binary floating point: significant bits, exponents of the smallest and largest normal number -/
  | float (bits : Nat) (emin emax : Int)
  /-- the number as it was read -/
  | asRead
  | label
  | text
  deriving DecidableEq

/-- IEEE 754 binary32 -/
def b32 : Kind := .float 24 (-126) 127
/-- IEEE 754 binary16 -/
def b16 : Kind := .float 11 (-14) 15

/-- the kinds of Arbin's columns -/
def arbinKinds : List (List String × Kind) :=
  [(["data_point", "cycle_index"], .signed 32),
   (["step_index"], .signed 16),
   (["test_time", "charge_capacity", "discharge_capacity", "charge_energy", "discharge_energy"], .asRead),
   (["datetime", "step_time", "current", "voltage", "dv/dt", "internal_resistance", "temperature"], b32)]

/-- the kinds of Maccor's columns -/
def maccorKinds : List (List String × Kind) :=
  [(["rec#", "cyc#"], .signed 32),
   (["step"], .signed 16),
   (["range"], .unsigned 8),
   (["test (sec)", "amp-hr", "watt-hr"], .asRead),
   (["step (sec)", "amps", "volts", "acimp/ohms", "dcir/ohms", "wf chg cap", "wf dis cap", "wf chg e", "wf dis e"], b32),
   ((List.range 15).map (fun i => "var" ++ toString (i + 1)), b16),
   (["es"], .label),
   (["state", "_state", "dpt time"], .text)]

/-- the kinds of Neware's columns -/
def newareKinds : List (List String × Kind) :=
  [(["Record ID", "Cycle ID"], .signed 32),
   (["Step ID"], .signed 16),
   (["test_time", "Capacitance_Chg(mAh)", "Capacitance_DChg(mAh)", "Engy_Chg(mWh)", "Engy_DChg(mWh)"], .asRead),
   (["Time(h:min:s.ms)", "Current(mA)", "Voltage(V)", "DCIR(O)", "Temperature(C)"], b32)]

/-- the kinds of the published columns of the Battery Archive -/
def archiveKinds : List (List String × Kind) :=
  [(["cycle_index"], .signed 32),
   (["test_time", "charge_capacity", "discharge_capacity", "charge_energy", "discharge_energy"], .asRead),
   (["current", "voltage", "temperature", "date_time"], b32)]

/-- the kinds of the columns of interpolated cycles -/
def interpolatedKinds : List (List String × Kind) :=
  [(["cycle_index"], .signed 32), (["step_index"], .signed 16), (["test_time"], .asRead), (["step_type"], .label),
   (["current", "voltage", "temperature", "internal_resistance", "charge_capacity", "discharge_capacity", "charge_energy",
     "discharge_energy"], b32)]

/-- the kinds of the columns of the summary -/
def summaryKinds : List (List String × Kind) :=
  [(["cycle_index", "paused"], .signed 32), (["date_time_iso"], .label),
   (["discharge_capacity", "charge_capacity", "discharge_energy", "charge_energy", "time_temperature_integrated"], .asRead),
   (["dc_internal_resistance", "temperature_maximum", "temperature_average", "temperature_minimum", "energy_efficiency",
     "charge_throughput", "energy_throughput", "charge_duration", "CV_time", "CV_current", "CV_capacity"], b32)]

/-- the kinds of the columns of the summary of diagnostic cycles -/
def diagnosticSummaryKinds : List (List String × Kind) :=
  [(["cycle_index", "paused"], .signed 32), (["date_time_iso", "cycle_type"], .label),
   (["discharge_capacity", "charge_capacity", "discharge_energy", "charge_energy", "coulombic_efficiency"], .asRead),
   (["temperature_maximum", "temperature_average", "temperature_minimum", "CV_time", "CV_current", "CV_capacity"], b32)]

/-- the kinds of the columns of interpolated diagnostic cycles -/
def diagnosticKinds : List (List String × Kind) :=
  [(["cycle_index"], .signed 32), (["step_index", "step_index_counter"], .signed 16), (["cycle_type", "step_type"], .label),
   (["charge_capacity", "discharge_capacity", "charge_energy", "discharge_energy", "test_time"], .asRead),
   (["voltage", "current", "internal_resistance", "temperature", "discharge_dQdV", "charge_dQdV"], b32)]

/-- columns called `n` are of kind `k` -/
def HasKind (t : List (List String × Kind)) (n : String) (k : Kind) : Prop := ∃ l, (l, k) ∈ t ∧ n ∈ l

/-- columns called `n` are of no particular kind -/
def NoKind (t : List (List String × Kind)) (n : String) : Prop := ∀ k, ¬HasKind t n k

/-- `y` is a number of the format with `p` significant bits: an integer below `2^p` times a power of
two not smaller than the format's smallest step -/
def IsFloat (p : Nat) (emin : Int) (y : Rat) : Prop :=
  ∃ m e : Int, |m| < 2 ^ p ∧ emin - ((p : Int) - 1) ≤ e ∧ y = (m : Rat) * (2 : Rat) ^ e

/-- `y` is a number of the format and none is nearer to `x`; where another is as near, `y` is the
one with an even significand, that is the one that needs a bit less -/
def IsNearestFloat (p : Nat) (emin : Int) (x y : Rat) : Prop :=
  IsFloat p emin y ∧ (∀ z, IsFloat p emin z → |x - y| ≤ |x - z|) ∧
  ∀ z, IsFloat p emin z → z ≠ y → |x - z| = |x - y| → IsFloat (p - 1) emin y

/-- `n` is `x` without its fraction -/
def IsWhole (x : Rat) (n : Int) : Prop :=
  |(n : Rat)| ≤ |x| ∧ |x| < |(n : Rat)| + 1 ∧ 0 ≤ (n : Rat) * x

/-- what is stored (`y`) for what was read (`x`) in a column of a kind -/
def Stored : Kind → Cell → Cell → Prop
  | .signed b, .num x, y =>
      ∃ n k : Int, IsWhole x n ∧ -2 ^ (b - 1) ≤ n + k * 2 ^ b ∧ n + k * 2 ^ b < 2 ^ (b - 1) ∧ y = .num ((n + k * 2 ^ b : Int) : Rat)
  | .unsigned b, .num x, y =>
      ∃ n k : Int, IsWhole x n ∧ 0 ≤ n + k * 2 ^ b ∧ n + k * 2 ^ b < 2 ^ b ∧ y = .num ((n + k * 2 ^ b : Int) : Rat)
  | .signed _, _, _ => False
  | .unsigned _, _, _ => False
  | .float p emin emax, .num x, y =>
      ∃ r, IsNearestFloat p emin x r ∧
        y = if |r| < (2 : Rat) ^ (emax + 1) then .num r else .inf (decide (x < 0))
  | .float _ _ _, .text _, _ => False
  | .asRead, .text _, _ => False
  | .text, .nan, y => y = .text "nan"
  | _, x, y => y = x

/-- a kind has a value for the cell -/
def Storable : Kind → Cell → Prop
  | .signed _, x => ∃ q, x = .num q
  | .unsigned _, x => ∃ q, x = .num q
  | .float _ _ _, x => ∀ s, x ≠ .text s
  | .asRead, x => ∀ s, x ≠ .text s
  | .label, _ => True
  | .text, _ => True

/-- the cells of a column are stored according to the kind of the column's name -/
def StoredAs (t : List (List String × Kind)) (n : String) (xs ys : List Cell) : Prop :=
  (∀ k, HasKind t n k → List.Forall₂ (Stored k) xs ys) ∧ (NoKind t n → ys = xs)

/-! ### Gaps -/

/-- a column called `n`, up to case, has a missing value -/
def Gap (f : Frame) (n : String) : Prop := ∃ c ∈ f, LowerOf c.1 n ∧ Cell.nan ∈ c.2

/-- the columns of a file that are not the temperature of the room -/
def Kept (f k : Frame) : Prop :=
  k.Sublist f ∧ (∀ c ∈ k, ¬LowerOf c.1 "environment_temperature (c)") ∧
    ∀ c ∈ f, ¬LowerOf c.1 "environment_temperature (c)" → c ∈ k

/-- a column published as `n` has a missing value -/
def ArchiveGap (k : Frame) (n : String) : Prop :=
  ∃ c ∈ k, ∃ m, LowerOf c.1 m ∧ Published archive m n ∧ Cell.nan ∈ c.2

/-! ### Times of Arbin files -/

/-- the file has one column of times, and these are its cells (the first column of the file is the index) -/
def TimeColumn (f : Frame) (cells : List Cell) : Prop :=
  ∃ pre a post, f.drop 1 = pre ++ a :: post ∧ a.2 = cells ∧ LowerOf a.1 "datetime" ∧
    ∀ c, c ∈ pre ∨ c ∈ post → ∀ n, LowerOf c.1 n → n ≠ "datetime" ∧ n ≠ "date_time"

/-- seconds since 1970 from 2004-01-10 to 2038-01-19 -/
def Recent (t : Rat) : Prop := 2 ^ 30 ≤ t ∧ t < 2 ^ 31

end Beep.Spec.Casts
