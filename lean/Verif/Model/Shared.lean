import Verif.Model.Datapath
import Verif.Model.CyclesInterp
/-
Model of what several datapaths do to the raw tables they share, and of the parameters that a
datapath records, beep/structure/base.py.
-/
namespace Beep.Shared
open Beep.Datapath

/-- the raw tables in memory, by identity (position), and for every datapath the table its
`raw_data` refers to: the constructor keeps the caller's table, base.py:189 -/
structure State where
  tables : List Frame
  objs : List Nat
  deriving DecidableEq, Repr

/-- the calls that touch a raw table, or might (base.py:166-277, 414-462, 502-578, 752-901).
`structure_ i reaches`: `structure` or `summarize_cycles` of datapath `i`; `reaches` says whether
it comes to line 836 or raises before.  `other i`: `validate`, `interpolate_cycles`,
`interpolate_diagnostic_cycles` (which works on a copy), `summarize_diagnostic`, `unstructure`,
`as_dict`, `to_json_file`. -/
inductive Op where
  | construct (t : Nat) (imputeMissing : Bool)
  | load (table : Cols)
  | structure_ (i : Nat) (reaches : Bool)
  | other (i : Nat)

/-- the minutes since the start of the cycle, base.py:834-844: a column computed from the cycle
numbers and the time stamps (`SummaryFull.minutes`), an input here -/
abbrev Minutes := Option (List Val) → Option (List Val) → List Val

/-- base.py:836-844: the column is stored in the raw table; line 854 drops it from a copy only -/
def addMinutes (m : Minutes) (f : Frame) : Frame :=
  let minutes := m (f.cols.get? "cycle_index") (f.cols.get? "date_time_iso")
  { f with cols := f.cols.set "time_since_cycle_start" minutes }

/-- change the table `t` in place (base.py:199-204, 836-844) -/
def change (σ : State) (t : Nat) (g : Frame → Frame) : State :=
  { σ with tables := σ.tables.modify t g }

/-- one call (base.py:166-277, 414-462, 502-578, 752-901); a call on a datapath that does not
exist does nothing -/
def step (m : Minutes) (σ : State) : Op → State
  | .construct t imputeMissing =>
    let σ := if imputeMissing then change σ t impute else σ
    { σ with objs := σ.objs ++ [t] }
  | .load c => { tables := σ.tables ++ [impute (frameOf c)], objs := σ.objs ++ [σ.tables.length] }
  | .structure_ i reaches =>
    match σ.objs[i]? with
    | some t => if reaches then change σ t (addMinutes m) else σ
    | none => σ
  | .other _ => σ

/-- a history of calls (base.py:166-277, 414-462, 502-578, 752-901) -/
def run (m : Minutes) (σ : State) (ops : List Op) : State := ops.foldl (step m) σ

/-! ### the recorded parameters -/

/-- keyword arguments of `structure`, base.py:502-511; `exclude_cycles=None` is the empty list -/
structure Args where
  vRange : Option (Rat × Rat) := none
  resolution : Nat := 1000
  diagResolution : Nat := 500
  nominal : Rat := 11 / 10
  fullFast : Rat := 8 / 10
  chargeAxis : String := "charge_capacity"
  dischargeAxis : String := "voltage"
  exclude : List Int := []
  deriving DecidableEq, Repr

/-- a recorded value (base.py:555-563) -/
inductive Rec where
  | range (r : Option (Rat × Rat))
  | count (n : Nat)
  | num (q : Rat)
  | str (s : String)
  deriving DecidableEq, Repr

/-- `self.structuring_parameters`, base.py:555-563 -/
def recorded (a : Args) : Dict String Rec :=
  [("v_range", .range a.vRange), ("resolution", .count a.resolution),
   ("diagnostic_resolution", .count a.diagResolution), ("nominal_capacity", .num a.nominal),
   ("full_fast_charge", .num a.fullFast), ("charge_axis", .str a.chargeAxis),
   ("discharge_axis", .str a.dischargeAxis)]

/-- one keyword of `structure(**kw)`; an unknown name is a `TypeError`.  A value of the wrong kind would
fail later; here it fails at once (base.py:502-511) -/
def bindOne (a : Args) (p : String × Rec) : Except Err Args :=
  match p with
  | ("v_range", .range r) => .ok { a with vRange := r }
  | ("resolution", .count n) => .ok { a with resolution := n }
  | ("diagnostic_resolution", .count n) => .ok { a with diagResolution := n }
  | ("nominal_capacity", .num q) => .ok { a with nominal := q }
  | ("full_fast_charge", .num q) => .ok { a with fullFast := q }
  | ("charge_axis", .str s) => .ok { a with chargeAxis := s }
  | ("discharge_axis", .str s) => .ok { a with dischargeAxis := s }
  | _ => .error .typeError

/-- the arguments that `structure(**kw)` works with (base.py:502-511) -/
def argsOf (kw : Dict String Rec) : Except Err Args := kw.foldlM bindOne {}

/-- the interpolated cycles made by `structure`, base.py:541-547 -/
def cyclesOf (a : Args) (raw : List CyclesInterp.WfRow) (hasWf indet : Bool) (diag : Option (List Int)) :
    Except Err (List Interp.OutRow) :=
  CyclesInterp.structuredCycles raw hasWf indet diag a.vRange a.resolution a.chargeAxis a.dischargeAxis a.exclude

end Beep.Shared
