import Verif.Model.Pandas
/-
Model of the charge / discharge classification of steps, beep/structure/base.py.
-/
namespace Beep.Steps
open Beep.Pandas

/-- the columns of the raw data read here and by the interpolation; NaN is `none`.
`other` holds the remaining interpolated columns (current, energies, resistance,
temperature) (base.py:1323-1372). -/
structure Row where
  cycle : Int
  step : Option Int
  charge : Option Rat
  discharge : Option Rat
  time : Option Rat := none
  voltage : Option Rat := none
  other : List (Option Rat) := []
  deriving DecidableEq, Repr

/-- a row in which only the columns needed for the classification are given (base.py:1323-1372) -/
def mkRow (cycle : Int) (step : Option Int) (charge discharge : Option Rat) : Row :=
  { cycle := cycle, step := step, charge := charge, discharge := discharge }

/-- one entry of `cdiff[~c_points_flagged]`, base.py:1347-1349: an increment above 99 % of
the total change of the column is replaced by NaN (`0/0` is NaN and not flagged) -/
def dropOutlier (total : Option Rat) (d : Option Rat) : Option Rat :=
  match total, d with
  | some t, some d => if t ≠ 0 ∧ d / t > 99 / 100 then none else some d
  | _, d => d

/-- average increment of one capacity column, base.py:1343-1352 -/
def avgDelta (vals : List (Option Rat)) : Option Rat :=
  let total := subN (maxN vals) (minN vals)
  meanN ((diff vals).map (dropOutlier total))

/-- the decision of base.py:1354-1366; `none` = cannot be determined -/
def isCharging (chg dchg : Option Rat) : Option Bool :=
  match chg, dchg with
  | none, none => none
  | none, some d => some (decide (d > 0))
  | some c, none => some (decide (c > 0))
  | some c, some d =>
    if c > d ∧ c > 0 then some true
    else if c < d ∧ d > 0 then some false
    else none

/-- `step_is_chg_state`, base.py:1323-1372 -/
def stepIsChgState (chg : Bool) (indeterminateCharge : Bool) (rows : List Row) : Bool :=
  match isCharging (avgDelta (rows.map Row.charge)) (avgDelta (rows.map Row.discharge)) with
  | none => chg == indeterminateCharge
  | some b => chg == b

/-- rows of one step index; a NaN step index belongs to no group of `groupby` (base.py:1094-1126) -/
def stepRows (rows : List Row) (s : Int) : List Row := rows.filter (fun r => r.step = some s)

/-- the step indices present (NaN excluded) (base.py:1094-1126) -/
def stepKeys (rows : List Row) : List Int := groupKeys (rows.filterMap Row.step)

/-- `cycle_df.groupby("step_index").filter(...)`, base.py:1118-1123: rows of the groups
that pass, in the original order -/
def filterGroups (p : List Row → Bool) (rows : List Row) : List Row :=
  rows.filter (fun r => match r.step with
    | none => false
    | some s => p (stepRows rows s))

/-- `iterate_steps_in_cycle`, base.py:1094-1126 -/
def iterateSteps (indeterminateCharge : Bool) (stepType : String) (cycle : List Row) :
    Except Err (List (List Row)) :=
  if stepType == "discharge" ∨ stepType == "charge" then
    let chg := stepType == "charge"
    let kept := filterGroups (stepIsChgState chg indeterminateCharge) cycle
    .ok ((stepKeys kept).map (stepRows kept))
  else .error .valueError

end Beep.Steps
