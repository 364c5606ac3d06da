import Verif.Model.Steps
/-
Model of `interpolate_df`, `interpolate_step` and `interpolate_cycles`,
beep/structure/base.py.
-/
namespace Beep.Interp
open Beep.Pandas Beep.Steps

/-- `np.linspace(a, b, n)` (exact arithmetic) (base.py:1258-1320) -/
def linspace (a b : Rat) (n : Nat) : List Rat :=
  match n with
  | 0 => []
  | 1 => [a]
  | n => (List.range n).map (fun i : Nat => a + (i : Rat) * ((b - a) / ((n : Rat) - 1)))

/-- value at `x ≥ x0` given the known point `(x0, y0)` and the later known points:
`np.interp`, constant beyond the last point (base.py:1258-1320) -/
def interpFrom (x0 y0 : Rat) : List (Rat × Rat) → Rat → Rat
  | [], _ => y0
  | (x1, y1) :: rest, x =>
    if x < x1 then y0 + (y1 - y0) * ((x - x0) / (x1 - x0)) else interpFrom x1 y1 rest x

/-- `DataFrame.interpolate("index")` for one column at index `x`: the known points are
sorted; before the first one the value stays NaN (`limit_direction="forward"`)
(base.py:1258-1320) -/
def interpAt : List (Rat × Rat) → Rat → Option Rat
  | [], _ => none
  | (x0, y0) :: rest, x => if x < x0 then none else some (interpFrom x0 y0 rest x)

/-- a table: axis value and the values of the other columns.  A NaN axis value is refused by
the caller (`hasGap`) (base.py:1258-1320). -/
abbrev Table := List (Rat × List (Option Rat))

/-- known points of column `j`, sorted along the axis (`merge(..., sort=True)`)
(base.py:1258-1320) -/
def known (t : Table) (j : Nat) : List (Rat × Rat) :=
  sortBy (fun p q => decide (p.1 ≤ q.1)) (t.filterMap (fun r => match r.2[j]? with
    | some (some y) => some (r.1, y)
    | _ => none))

/-- the value of column `j` in the row of the grid point `x` (base.py:1306-1319).  The merged frame has one row for every
row of the table at `x`, in the order of the table, or one without values; duplicates go, so the first counts.  A value of
its own stays.  A gap is filled if some value stands above it in the merged frame (`limit_direction="forward"`), by
`np.interp`.  Simplified: points of equal axis value are taken in their order (numpy's `argsort` may exchange them). -/
def valueAt (t : Table) (j : Nat) (x : Rat) : Option Rat :=
  match t.find? (fun r => decide (r.1 = x)) with
  | none => interpAt (known t j) x
  | some r => match r.2[j]? with
    | some (some y) => some y
    | _ => if (known t j).any (fun p => decide (p.1 < x)) then interpAt (known t j) x else none

/-- `interpolate_df`, base.py:1258-1320, for a numeric axis and `m` other columns.
`fieldRange = none` takes the first and last axis value; an empty frame then raises
`IndexError`. The date axis (1293-1300) is not modelled. -/
def interpolateDf (t : Table) (m : Nat) (fieldRange : Option (Rat × Rat)) (n : Nat) :
    Except Err (List (Rat × List (Option Rat))) :=
  let range : Except Err (Rat × Rat) := match fieldRange with
    | some r => .ok r
    | none => match t.head?, t.getLast? with
      | some a, some b => .ok (a.1, b.1)
      | _, _ => .error .indexError
  match range with
  | .error e => .error e
  | .ok (a, b) =>
    -- the merged, sorted frame restricted to the grid rows (1306-1315), duplicates removed (1319)
    let grid := unique (sortBy (fun p q => decide (p ≤ q)) (linspace a b n))
    .ok (grid.map (fun x => (x, (List.range m).map (fun j => valueAt t j x))))

/-- a row of the result of `interpolate_step` (base.py:581-683) -/
structure OutRow where
  cycle : Int
  stepType : String
  step : Int
  x : Rat
  vals : List (Option Rat)
  deriving DecidableEq, Repr

/-- the axis column of a raw row (base.py:581-683) -/
def axisOf (axis : String) (r : Row) : Option Rat :=
  if axis == "charge_capacity" then r.charge
  else if axis == "discharge_capacity" then r.discharge
  else if axis == "test_time" then r.time
  else r.voltage

/-- the interpolated columns `incl_columns`, base.py:617-627 -/
def colsOf (r : Row) : List (Option Rat) :=
  [r.time, r.voltage, r.charge, r.discharge] ++ r.other

/-- the place of the axis among `colsOf` (base.py:581-683) -/
def axisIdx (axis : String) : Nat :=
  if axis == "charge_capacity" then 2
  else if axis == "discharge_capacity" then 3
  else if axis == "test_time" then 0
  else 1

/-- the step as a table along the axis (base.py:581-683) -/
def tableOf (axis : String) (rows : List Row) : Table :=
  rows.filterMap (fun r => (axisOf axis r).map (fun x => (x, colsOf r)))

/-- a NaN in the axis column: `DataFrame.interpolate("index")` (base.py:1309) raises
`NotImplementedError` -/
def hasGap (axis : String) (step : List Row) : Bool := step.any (fun r => (axisOf axis r).isNone)

/-- base.py:641-650.  A NaN range (column without any value) makes the axis NaN, which is
refused as in `hasGap`. -/
def axisRange (raw step : List Row) (axis : String) (vRange : Rat × Rat) : Except Err (Rat × Rat) :=
  let mm (l : List (Option Rat)) : Except Err (Rat × Rat) := match minN l, maxN l with
    | some a, some b => .ok (a, b)
    | _, _ => .error .notImplemented
  if axis == "charge_capacity" || axis == "discharge_capacity" then mm (raw.map (axisOf axis))
  else if axis == "test_time" then mm (step.map (axisOf axis))
  else if axis == "voltage" then .ok vRange
  else .error .valueError

/-- number of interpolated columns (base.py:581-683) -/
def width : List Row → Nat
  | [] => 4
  | r :: _ => 4 + r.other.length

/-- the body of the loop over the steps of one cycle, base.py:637-674.  The axis is the index
of the interpolated frame (1308, 1317), so its own column holds the grid value. -/
def interpolateOneStep (raw : List Row) (axis stepType : String) (vRange : Rat × Rat) (n : Nat)
    (cycle : Int) (step : List Row) : Except Err (List OutRow) :=
  if step.length < 2 then .ok []                                               -- 639-640
  else match axisRange raw step axis vRange with
    | .error e => .error e
    | .ok range =>
      match step.filterMap Row.step with
      | [] => .error .indexError
      | s :: _ =>
        if hasGap axis step then .error .notImplemented else
        match interpolateDf (tableOf axis step) (width step) (some range) n with
        | .error e => .error e
        | .ok rows => .ok (rows.map (fun r => ⟨cycle, stepType, s, r.1, r.2.set (axisIdx axis) (some r.1)⟩))

/-- concatenate the results of a loop, stopping at the first exception (base.py:581-683) -/
def collect {α β : Type} (f : α → Except Err (List β)) : List α → Except Err (List β)
  | [] => .ok []
  | a :: as => match f a with
    | .error e => .error e
    | .ok b => match collect f as with
      | .error e => .error e
      | .ok bs => .ok (b ++ bs)

/-- base.py:629-630 -/
def cycleIndices (raw : List Row) (regCycles exclude : List Int) : List Int :=
  sortBy (fun a b => decide (a ≤ b))
    ((unique (raw.map Row.cycle)).filter (fun c => regCycles.contains c && !exclude.contains c))

/-- one cycle of `interpolate_step`, base.py:632-674 -/
def interpolateCycle (raw : List Row) (indet : Bool) (axis stepType : String) (vRange : Rat × Rat)
    (n : Nat) (c : Int) : Except Err (List OutRow) :=
  match iterateSteps indet stepType (raw.filter (fun r => r.cycle = c)) with
  | .error e => .error e
  | .ok steps => collect (interpolateOneStep raw axis stepType vRange n c) steps

/-- `interpolate_step`, base.py:581-683 -/
def interpolateStep (raw : List Row) (indet : Bool) (vRange : Rat × Rat) (n : Nat)
    (stepType : String) (regCycles : List Int) (axis : String) (exclude : List Int) :
    Except Err (List OutRow) :=
  collect (interpolateCycle raw indet axis stepType vRange n) (cycleIndices raw regCycles exclude)

/-- `interpolate_cycles`, base.py:685-749.  `diag` are the diagnostic indices;
`wfDchg`/`wfChg` say whether a regular cycle contains a waveform discharge / charge step
(714-724); the default voltage range is 2.8 to 3.5. -/
def interpolateCycles (raw : List Row) (indet : Bool) (diag : Option (List Int))
    (vRange : Option (Rat × Rat)) (n : Nat) (chargeAxis dischargeAxis : String)
    (exclude : List Int) (wfDchg wfChg : Bool) : Except Err (List OutRow) :=
  let reg : List Row := match diag with
    | some ix => raw.filter (fun r => !ix.contains r.cycle)
    | none => raw
  let regCycles := unique (reg.map Row.cycle)
  let v := match vRange with
    | some v => v
    | none => (28 / 10, 35 / 10)
  let dAxis := if wfDchg then "test_time" else dischargeAxis
  let cAxis := if wfChg then "test_time" else chargeAxis
  match interpolateStep raw indet v n "discharge" regCycles dAxis exclude with
  | .error e => .error e
  | .ok d => match interpolateStep raw indet v n "charge" regCycles cAxis exclude with
    | .error e => .error e
    | .ok c => .ok (d ++ c)

end Beep.Interp
