import Verif.Model.Steps
/-
Specification vocabulary for the interpolated aging cycles.  Only the record of a raw row is
taken from the model.
-/
namespace Beep.Spec.CyclesInterp
open Beep.Steps (Row)

/-- the raw column an interpolation axis stands for -/
inductive AxisColumn : String → (Row → Option Rat) → Prop
  | charge : AxisColumn "charge_capacity" Row.charge
  | discharge : AxisColumn "discharge_capacity" Row.discharge
  | time : AxisColumn "test_time" Row.time
  | voltage : AxisColumn "voltage" Row.voltage

/-- `lo` and `hi` are the smallest and the largest value of a column -/
structure Extent (col : Row → Option Rat) (rows : List Row) (lo hi : Rat) : Prop where
  low : ∃ r ∈ rows, col r = some lo
  high : ∃ r ∈ rows, col r = some hi
  within : ∀ r ∈ rows, ∀ x, col r = some x → lo ≤ x ∧ x ≤ hi

/-- the interpolation range: capacities over the whole test, time over the step, voltage as
requested -/
inductive GridRange (raw step : List Row) (v : Rat × Rat) : String → Rat → Rat → Prop
  | charge {lo hi} : Extent Row.charge raw lo hi → GridRange raw step v "charge_capacity" lo hi
  | discharge {lo hi} : Extent Row.discharge raw lo hi → GridRange raw step v "discharge_capacity" lo hi
  | time {lo hi} : Extent Row.time step lo hi → GridRange raw step v "test_time" lo hi
  | voltage : GridRange raw step v "voltage" v.1 v.2

/-- the place of the axis column among the interpolated columns -/
inductive AxisPlace : String → Nat → Prop
  | time : AxisPlace "test_time" 0
  | voltage : AxisPlace "voltage" 1
  | charge : AxisPlace "charge_capacity" 2
  | discharge : AxisPlace "discharge_capacity" 3

/-- the interpolated columns of a raw row -/
def cells (r : Row) : List (Option Rat) := r.time :: r.voltage :: r.charge :: r.discharge :: r.other

/-- one of the rows has `x` in the axis column and `y` in column `j` -/
def Reading (ax : Row → Option Rat) (rows : List Row) (j : Nat) (x y : Rat) : Prop :=
  ∃ r ∈ rows, ax r = some x ∧ (cells r)[j]? = some (some y)

/-- no two rows of the step have the same value in the axis column -/
def DistinctOn (ax : Row → Option Rat) (rows : List Row) : Prop := (rows.filterMap ax).Nodup

/-- `v` is the value of column `j` at `x` by piecewise linear interpolation of the readings:
the straight line between neighbours, the last value afterwards, missing before the first -/
structure Interpolated (ax : Row → Option Rat) (rows : List Row) (j : Nat) (x : Rat)
    (v : Option Rat) : Prop where
  exact : ∀ y, Reading ax rows j x y → v = some y
  line : ∀ p yp q yq, Reading ax rows j p yp → Reading ax rows j q yq → p < q →
    (∀ z yz, Reading ax rows j z yz → z ≤ p ∨ q ≤ z) → p ≤ x → x ≤ q →
    v = some (yp + (yq - yp) * ((x - p) / (q - p)))
  after : ∀ p yp, Reading ax rows j p yp → (∀ z yz, Reading ax rows j z yz → z ≤ p) → p ≤ x →
    v = some yp
  before : (∀ z yz, Reading ax rows j z yz → x < z) → v = none

/-- `x` is one of `n` evenly spaced values from `lo` to `hi` -/
def OnGrid (lo hi : Rat) (n : Nat) (x : Rat) : Prop :=
  ∃ i : Nat, i < n ∧ x = lo + (i : Rat) * ((hi - lo) / ((n : Rat) - 1))

/-- the name of a direction -/
def kind : Bool → String
  | true => "charge"
  | false => "discharge"

/-- the rows of step `s` of cycle `c` -/
def rowsOf (raw : List Row) (c s : Int) : List Row :=
  raw.filter (fun r => decide (r.cycle = c) && decide (r.step = some s))

/-- a waveform of the given direction is present: a regular cycle has a step of that
direction one of whose rows carries a waveform capacity -/
def HasWaveform (isDir : List Row → Prop) (raw : List (Row × Bool)) (regular : Int → Prop) : Prop :=
  ∃ c s, regular c ∧ isDir (rowsOf (raw.map Prod.fst) c s) ∧
    ∃ r ∈ raw, r.1.cycle = c ∧ r.1.step = some s ∧ r.2 = true

end Beep.Spec.CyclesInterp
