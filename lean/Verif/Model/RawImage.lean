import Verif.Model.Summary
import Verif.Model.Ingest
/-
`RawInterpolatedData`, `ChargingProtocol` and `TrajectoryFastCharge` of `beep/features/core.py`.
-/
namespace Beep.RawImage
open Beep Pandas

/-- a row of the interpolated diagnostic data; `val` gives the other columns, NaN is `none`
(core.py:1078-1173) -/
structure Row where
  cycle : Int
  cycleType : String
  step : Int
  val : String → Option Rat

/-- `df[name]` (core.py:1078-1173) -/
def column (cols : List String) (rows : List Row) (name : String) : Except Err (List (Option Rat)) :=
  if name ∈ cols then .ok (rows.map (fun r => r.val name)) else .error .keyError

/-- `np.minimum` (core.py:1146) -/
def minimum : Option Rat → Option Rat → Option Rat
  | some x, some y => some (if y < x then y else x)
  | _, _ => none

/-- `x + y` with NaN (core.py:1164) -/
def addN : Option Rat → Option Rat → Option Rat
  | some x, some y => some (x + y)
  | _, _ => none

/-- `fillna(method='ffill')` (core.py:1152) -/
def ffill (prev : Option Rat) : List (Option Rat) → List (Option Rat)
  | [] => []
  | some x :: l => some x :: ffill (some x) l
  | none :: l => prev :: ffill prev l

/-- `fillna(method='bfill')` (core.py:1153) -/
def bfill : List (Option Rat) → List (Option Rat)
  | [] => []
  | some x :: l => some x :: bfill l
  | none :: l => match bfill l with
    | [] => [none]
    | y :: m => y :: y :: m

/-- `np.nan_to_num` (core.py:1158, 1164) -/
def nanToNum (l : List (Option Rat)) : List (Option Rat) := l.map (fun x => some (x.getD 0))

/-- one channel from the rows of a step, core.py:1144-1168 -/
def channel (cols : List String) (impute : Bool) (metric : String) (rows : List Row) : Except Err (List (Option Rat)) :=
  if metric = "capacity" ∨ metric = "energy" then do
    let c ← column cols rows ("charge_" ++ metric)
    let d ← column cols rows ("discharge_" ++ metric)
    let s := List.zipWith (fun x y => minimum x (subN (maxN c) y)) c d
    .ok (if impute then bfill (ffill none s) else s)
  else if metric = "test_time" then do
    let t ← column cols rows "test_time"
    let s := t.map (fun x => subN x (minN t))
    .ok (if impute then nanToNum s else s)
  else if metric = "dQdV" then do
    let c ← column cols rows ("charge_" ++ metric)
    let d ← column cols rows ("discharge_" ++ metric)
    let s := List.zipWith addN c d
    .ok (if impute then nanToNum s else s)
  else column cols rows metric

/-- the rows of a step of a cycle, core.py:1142-1143 -/
def stepRows (sub : List Row) (pos i : Nat) : Except Err (List Row) :=
  match (unique (sub.map Row.cycle))[pos]? with
  | none => .error .indexError
  | some c =>
    let df := sub.filter (fun r => r.cycle = c)
    match (unique (df.map Row.step))[i]? with
    | none => .error .indexError
    | some s => .ok (df.filter (fun r => r.step = s))

/-- the name of a channel, core.py:1140 -/
def name (type metric : String) (i pos : Nat) : String :=
  "diag_cycle_" ++ toString pos ++ "_" ++ type ++ "_" ++ metric ++ "_step_" ++ toString i

/-- one pass of the inner loop, core.py:1140-1168 -/
def one (cols : List String) (impute : Bool) (type : String) (sub : List Row) (q : String × Nat × Nat) :
    Except Err (String × List (Option Rat)) := do
  let rows ← stepRows sub q.2.2 q.2.1
  let y ← channel cols impute q.1 rows
  .ok (name type q.1 q.2.1 q.2.2, y)

/-- one pass of the outer loop, core.py:1128-1168: a type whose first cycle does not have two steps is left out -/
def ofType (cols : List String) (impute : Bool) (metrics : List String) (positions : List Nat) (df : List Row)
    (type : String) : Except Err (List (String × List (Option Rat))) :=
  let sub := df.filter (fun r => r.cycleType = type)
  match (unique (sub.map Row.cycle))[0]? with
  | none => .error .indexError
  | some c =>
    if (unique ((sub.filter (fun r => r.cycle = c)).map Row.step)).length ≠ 2 then .ok []
    else Summary.mapE (one cols impute type sub)
      (metrics.flatMap (fun m => (List.range 2).flatMap (fun i => positions.map (fun p => (m, i, p)))))

/-- `RawInterpolatedData.create_features`, core.py:1115-1173; positions from the front.  Assignment of a row to a frame
without columns raises `ValueError`. -/
def images (cols : List String) (impute : Bool) (metrics types : List String) (positions : List Nat) (df : List Row) :
    Except Err (List (String × List (Option Rat))) :=
  match Summary.mapE (ofType cols impute metrics positions df) types with
  | .error e => .error e
  | .ok ls => if ls.flatten = [] then .error .valueError else .ok ls.flatten

/-- `ChargingProtocol.validate`, core.py:1200-1217, for data with a diagnostic summary -/
def protocolValid (raw structured : Option Str) : Bool := raw.isSome || structured.isSome

/-- `parameters[quantities]`: the columns asked for, of the rows of the run (core.py:1176-1232) -/
def select (quantities : List String) (rows : List Ingest.PRow) : Except Err (List (List (String × Rat))) :=
  Summary.mapE (fun r : Ingest.PRow => Summary.mapE (fun q => match Dict.get? r.vals q with
    | some v => .ok (q, v)
    | none => .error .keyError) quantities) rows

/-- `ChargingProtocol.create_features`, core.py:1219-1232 -/
def chargingProtocol (dir : List (Str × List Ingest.PRow)) (raw structured : Option Str) (quantities : List String) :
    Except Err (List (List (String × Rat))) :=
  match raw.or structured with
  | none => .error .keyError
  | some path => match Ingest.protocolParameters dir path with
    | .error e => .error e
    | .ok none => .error .typeError
    | .ok (some (rows, _)) => select quantities rows

/-- `TrajectoryFastCharge.validate`, core.py:676-694: `cap.min() / cap.max() < thresh_max_cap` for capacities above 0 -/
def trajectoryValid (s : Summary.Caps) (maxCap : Rat) : Bool :=
  match minN (s.map (fun r => some r.2)), maxN (s.map (fun r => some r.2)) with
  | some a, some b => decide (a / b < maxCap)
  | _, _ => false

end Beep.RawImage
