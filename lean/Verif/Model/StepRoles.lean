import Verif.Model.Table
/-
`get_step_index` of `beep/features/featurizer_helpers.py`.
-/
namespace Beep.StepRoles
open Beep Pandas Table

/-- a row of the diagnostic data, the columns that are read.  Times are present, currents may be NaN
(featurizer_helpers.py:548-627). -/
structure Row where
  cycleType : Str
  cycle : Int
  step : Int
  counter : Int
  current : Option Rat
  time : Rat
  deriving DecidableEq, Repr

/-- the keys of the result; `charge` and `discharge` are `<cycle_type>_charge` and
`<cycle_type>_discharge`, the others begin with `hppc_` (featurizer_helpers.py:548-627) -/
inductive Role where
  | longRest | shortRest | dischargePulse | chargePulse | finalDischarge | dischargeToNextSoc | chargeToSoc
  | charge | discharge
  deriving DecidableEq, Repr

/-- `cycle.step_index.unique()` (featurizer_helpers.py:548-627) -/
def steps (cycle : List Row) : List Int := unique (cycle.map Row.step)

/-- `cycle[cycle.step_index == step]` (featurizer_helpers.py:548-627) -/
def ofStep (cycle : List Row) (s : Int) : List Row := cycle.filter (fun r => r.step = s)

/-- `np.round(cycle_step.current.median() / capacity, 2)` (featurizer_helpers.py:548-627) -/
def medianRate (cap : Rat) (rows : List Row) : Option Rat :=
  (medianN (rows.map Row.current)).map (fun x => round2 (x / cap))

/-- `np.round(cycle_step.current.mean() / capacity, 2)` (featurizer_helpers.py:548-627) -/
def meanRate (cap : Rat) (rows : List Row) : Option Rat :=
  (meanN (rows.map Row.current)).map (fun x => round2 (x / cap))

/-- `test_time.max()`; the frames it is taken of are not empty (featurizer_helpers.py:548-627) -/
def lastTime (rows : List Row) : Rat := (maxN (rows.map (fun r => some r.time))).getD 0

/-- `test_time.min()` (featurizer_helpers.py:548-627) -/
def firstTime (rows : List Row) : Rat := (minN (rows.map (fun r => some r.time))).getD 0

/-- featurizer_helpers.py:591-596: the rounded median of the durations of the occurrences of a step -/
def medianDuration (rows : List Row) : Rat :=
  let ds := (unique (rows.map Row.counter)).map (fun k =>
    let it := rows.filter (fun r => r.counter = k)
    some (lastTime it - firstTime it))
  (roundEven ((medianN ds).getD 0) : Rat)

/-- `x < y`, `x <= y` with NaN on the left (featurizer_helpers.py:548-627) -/
def ltN (x : Option Rat) (y : Rat) : Bool := match x with
  | some a => decide (a < y)
  | none => false

/-- `x <= y` with NaN on the left, featurizer_helpers.py:548-627 -/
def leN (x : Option Rat) (y : Rat) : Bool := match x with
  | some a => decide (a ≤ y)
  | none => false

/-- `x > y` with NaN on the left, featurizer_helpers.py:548-627 -/
def gtN (x : Option Rat) (y : Rat) : Bool := match x with
  | some a => decide (y < a)
  | none => false

/-- `x >= y` with NaN on the left, featurizer_helpers.py:548-627 -/
def geN (x : Option Rat) (y : Rat) : Bool := match x with
  | some a => decide (y ≤ a)
  | none => false

/-- `x == y`; NaN equals nothing (featurizer_helpers.py:548-627) -/
def eqN (x y : Option Rat) : Bool := match x, y with
  | some a, some b => decide (a = b)
  | _, _ => false

/-- featurizer_helpers.py:584-617: the role of a step of an hppc cycle; `none` when no branch applies -/
def hppcRole (cap : Rat) (cycle : List Row) (s : Int) : Except Err (Option Role) :=
  let rows := ofStep cycle s
  let m := medianRate cap rows
  let mu := meanRate cap rows
  let remaining := lastTime cycle - lastTime rows
  let recurring := decide ((unique (rows.map Row.counter)).length > 1)
  let t := medianDuration rows
  if eqN m (some 0) then
    if t > 600 then .ok (some .longRest)
    else if 600 ≥ t ∧ t > 0 then .ok (some .shortRest)
    else .error .valueError
  else if leN m (-(1 / 2)) && decide (t < 120) then .ok (some .dischargePulse)
  else if geN m (1 / 2) && decide (t < 120) then .ok (some .chargePulse)
  else if (!eqN mu m && ltN m 0) && decide (remaining = 0) && !recurring then .ok (some .finalDischarge)
  else if (eqN mu m && ltN m 0) && decide (remaining = 0) && !recurring then .ok (some .finalDischarge)
  else if (eqN mu m && ltN m 0) && gtN (mu.map (fun x => absR (x * t / 3600))) (5 / 100) then
    .ok (some .dischargeToNextSoc)
  else if gtN m 0 && decide (t > 120) then .ok (some .chargeToSoc)
  else .ok none

/-- featurizer_helpers.py:619-628: the role of a step of another diagnostic cycle -/
def plainRole (cap : Rat) (cycle : List Row) (s : Int) : Except Err (Option Role) :=
  let m := medianRate cap (ofStep cycle s)
  if gtN m 0 then .ok (some .charge)
  else if ltN m 0 then .ok (some .discharge)
  else .error .valueError

/-- the loops over the steps: `step_indices_annotated[role] = step`
(featurizer_helpers.py:548-627) -/
def annotate (role : Int → Except Err (Option Role)) : List Int → Dict Role Int → Except Err (Dict Role Int)
  | [], d => .ok d
  | s :: ss, d => match role s with
    | .error e => .error e
    | .ok none => annotate role ss d
    | .ok (some r) => annotate role ss (Dict.set d r s)

/-- `xs[i]` with negative indices (featurizer_helpers.py:548-627) -/
def at? (xs : List Int) (i : Int) : Option Int :=
  if 0 ≤ i then xs[i.toNat]?
  else if (xs.length : Int) + i < 0 then none else xs[((xs.length : Int) + i).toNat]?

/-- the rows of the diagnostic cycle that is looked at (featurizer_helpers.py:579-581) -/
def chosen (data : List Row) (cycleType : Str) (pos : Int) : Option (List Row) :=
  let cycles := data.filter (fun r => r.cycleType = cycleType)
  (at? (unique (cycles.map Row.cycle)) pos).map (fun k => cycles.filter (fun r => r.cycle = k))

/-- the cycle types other than hppc (featurizer_helpers.py:548-627) -/
def plainTypes : List Str := ["rpt_0.2C".toList, "rpt_1C".toList, "rpt_2C".toList, "reset".toList]

/-- `get_step_index` (featurizer_helpers.py:548-634).  `cap` is the nominal capacity looked up from the
protocol name (featurizer_helpers.py:571-576), taken to be found and not zero. -/
def getStepIndex (cap : Rat) (data : List Row) (cycleType : Str) (pos : Int) : Except Err (Dict Role Int) :=
  match chosen data cycleType pos with
  | none => .error .indexError
  | some cycle =>
    match (if cycleType = "hppc".toList then annotate (hppcRole cap cycle) (steps cycle) []
           else if cycleType ∈ plainTypes then annotate (plainRole cap cycle) (steps cycle) []
           else .error .notImplemented) with
    | .error e => .error e
    | .ok d => if (steps cycle).length = d.length then .ok d else .error .assertionError

end Beep.StepRoles
