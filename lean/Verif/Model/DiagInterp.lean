import Verif.Model.Interp
import Verif.Model.Diagnostic
/-
Model of `interpolate_diagnostic_cycles`, beep/structure/base.py.
-/
namespace Beep.DiagInterp
open Beep.Pandas Beep.Steps Beep.Interp

/-- keyword arguments, base.py:904-910 -/
structure Args where
  timeRes : Nat := 1000
  voltRes : Nat := 1000
  vDelta : Rat := 1 / 1000
  fallback : Option (Rat × Rat) := none

/-- a row of the result: the interpolated columns (`colsOf`: test time, voltage, charge
capacity, discharge capacity, others), the labels and the two slopes.  A slope that is NaN
or infinite is `none` (base.py:904-1040). -/
structure DRow where
  cycle : Int
  cycleType : String
  step : Int
  counter : Nat
  stepType : Nat
  vals : List (Option Rat)
  dchgSlope : Option Rat
  chgSlope : Option Rat
  deriving DecidableEq, Repr

/-- `Series.ne` of two step indices: NaN differs from everything (base.py:904-1040) -/
def neN : Option Int → Option Int → Bool
  | some a, some b => decide (a ≠ b)
  | _, _ => true

/-- `step_index_list.ne(step_index_list.shift()).cumsum()`, base.py:938-942, over the rows of
one cycle: the rows with their counter -/
def counters (prev : Option Int) (k : Nat) : List Row → List (Row × Nat)
  | [] => []
  | r :: rs =>
    let k' := if neN r.step prev then k + 1 else k
    (r, k') :: counters r.step k' rs

/-- the rows of a diagnostic cycle with their counters (base.py:904-1040) -/
def tagged (raw : List Row) (c : Int) : List (Row × Nat) :=
  counters none 0 (raw.filter (fun r => r.cycle = c))

/-- order of the keys of one cycle in `groupby(["cycle_index", "step_index",
"step_index_counter"])` (base.py:904-1040) -/
def keyLe (a b : Int × Nat) : Bool := decide (a.1 < b.1) || (decide (a.1 = b.1) && decide (a.2 ≤ b.2))

/-- the keys (step, counter) of one cycle; rows without step index are in no group
(base.py:904-1040) -/
def keysOf (t : List (Row × Nat)) : List (Int × Nat) :=
  sortBy keyLe (unique (t.filterMap (fun p => p.1.step.map (fun s => (s, p.2)))))

/-- the rows of one group (base.py:904-1040) -/
def groupOf (t : List (Row × Nat)) (key : Int × Nat) : List Row :=
  (t.filter (fun p => decide (p.1.step = some key.1) && decide (p.2 = key.2))).map Prod.fst

/-- axis, range and resolution of a group, base.py:969-1004.  Without any voltage every
comparison is false and the axis is NaN, which `interpolate` refuses (`hasGap`). -/
def stepAxis (a : Args) (hppc : Bool) (rows : List Row) : Except Err (String × (Rat × Rat) × Nat) :=
  match minN (rows.map Row.voltage), maxN (rows.map Row.voltage) with
  | some lo, some hi =>
    if hppc && decide (hi - lo ≥ a.vDelta) then .ok ("voltage", (lo, hi), a.voltRes)
    else if hi - lo < a.vDelta then
      match minN (rows.map Row.time), maxN (rows.map Row.time) with
      | some t0, some t1 => .ok ("test_time", (t0, t1), a.timeRes)
      | _, _ => .error .notImplemented
    else .ok ("voltage", a.fallback.getD (lo, hi), a.voltRes)
  | _, _ => .error .notImplemented

/-- quotient of two differences; NaN and infinity are `none` (base.py:904-1040) -/
def divN : Option Rat → Option Rat → Option Rat
  | some a, some b => if b = 0 then none else some (a / b)
  | _, _ => none

/-- column `j` of interpolated rows (base.py:904-1040) -/
def column (j : Nat) (vs : List (List (Option Rat))) : List (Option Rat) := vs.map (fun v => v.getD j none)

/-- `column.diff() / voltage.diff()`, base.py:1019-1024 -/
def slopes (j : Nat) (vs : List (List (Option Rat))) : List (Option Rat) :=
  List.zipWith divN (diff (column j vs)) (diff (column 1 vs))

/-- the labels of a row, base.py:1005-1009, and its slopes -/
def label (cycle : Int) (cycleType : String) (step : Int) (counter stepType : Nat)
    (p : List (Option Rat) × Option Rat × Option Rat) : DRow :=
  ⟨cycle, cycleType, step, counter, stepType, p.1, p.2.1, p.2.2⟩

/-- the loop body for one group, base.py:965-1029.  A result of fewer than two points is left
out (1025-1029); the test for short groups at 966-968 only writes to the log. -/
def groupRows (a : Args) (hppc : Bool) (cycle : Int) (cycleType : String) (stepType : Nat)
    (key : Int × Nat) (rows : List Row) : Except Err (List DRow) :=
  match stepAxis a hppc rows with
  | .error e => .error e
  | .ok (axis, range, n) =>
    if hasGap axis rows then .error .notImplemented else
    match interpolateDf (tableOf axis rows) (width rows) (some range) n with
    | .error e => .error e
    | .ok pts =>
      let vs := pts.map (fun q => q.2.set (axisIdx axis) (some q.1))
      if vs.length < 2 then .ok []
      else .ok ((vs.zip ((slopes 3 vs).zip (slopes 2 vs))).map
        (label cycle cycleType key.1 key.2 stepType))

/-- position of a step in the order of first appearance in its cycle, base.py:957-962, 1009 -/
def stepTypeOf (rows : List Row) (s : Int) : Nat := (unique (rows.map Row.step)).idxOf (some s)

/-- all groups of one cycle (base.py:904-1040) -/
def cycleGroups (a : Args) (cfg : Diagnostic.Config) (raw : List Row) (c : Int) : Except Err (List DRow) :=
  collect (fun key => match cfg.typeByIx.get? c with
    | none => .error .keyError
    | some t => groupRows a (cfg.hppcIx.contains c) c t
        (stepTypeOf (raw.filter (fun r => r.cycle = c)) key.1) key (groupOf (tagged raw c) key))
    (keysOf (tagged raw c))

/-- `a ≤ b` of `sort_values`: NaN last (base.py:904-1040) -/
def leN : Option Rat → Option Rat → Bool
  | some a, some b => decide (a ≤ b)
  | none, some _ => false
  | _, none => true

/-- order of `sort_values(by=["cycle_index", "step_index_counter", "test_time"])`,
base.py:1033-1037 -/
def rowLe (p q : DRow) : Bool :=
  decide (p.cycle < q.cycle) || (decide (p.cycle = q.cycle) &&
    (decide (p.counter < q.counter) || (decide (p.counter = q.counter) &&
      leN (p.vals.getD 0 none) (q.vals.getD 0 none))))

/-- `interpolate_diagnostic_cycles`, base.py:904-1040.  Index labels of the raw data are taken
as distinct.  Concatenating no frame raises `ValueError`. -/
def interpolateDiagnostic (a : Args) (diag : Option Diagnostic.Config) (raw : List Row) :
    Except Err (List DRow) :=
  match diag with
  | none => .error .valueError
  | some cfg =>
    let data := raw.filter (fun r => cfg.allIx.contains r.cycle)
    match collect (cycleGroups a cfg data) (groupKeys (data.map Row.cycle)) with
    | .error e => .error e
    | .ok rows => if rows.isEmpty then .error .valueError else .ok (sortBy rowLe rows)

end Beep.DiagInterp
