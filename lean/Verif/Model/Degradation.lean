import Verif.Model.Interp
import Verif.Model.Segments
/-
Model of the degradation helpers, beep/features/featurizer_helpers.py, and of the featurizers
DiagnosticProperties and ExclusionCriteria, beep/features/core.py.
-/
namespace Beep.Degradation
open Beep.Pandas

/-- a row of the cycle summary: position label, cycle index, the numeric columns by name
(all columns exist: simplification) (featurizer_helpers.py:442-545) -/
structure RegRow where
  label : Int
  cycle : Int
  val : String → Option Rat

/-- a row of the diagnostic summary; the time stamp in whole seconds, `none` for NaT
(featurizer_helpers.py:414-439, 442-545) -/
structure DiagRow where
  cycle : Int
  type : String
  stamp : Option Int
  val : String → Option Rat

/-- `a / b` of columns; NaN and infinity are `none` (featurizer_helpers.py:414-439, 442-545) -/
def divN : Option Rat → Option Rat → Option Rat
  | some a, some b => if b = 0 then none else some (a / b)
  | _, _ => none

/-- the diagnostic cycles of a type (featurizer_helpers.py:414-439, 442-545) -/
def ofType (diag : List DiagRow) (type : String) : List DiagRow := diag.filter (fun r => r.type = type)

/-- `diagnostic_summary[metric].iloc[0]` (featurizer_helpers.py:414-439, 442-545) -/
def reference (diag : List DiagRow) (metric : String) : Option Rat := diag.head?.bind (fun r => r.val metric)

/-- `get_fractional_quantity_remaining`, featurizer_helpers.py:414-440: cycle index and fraction.
An empty summary raises at `iloc[0]`. -/
def fractional (diag : List DiagRow) (metric type : String) : Except Err (List (Int × Option Rat)) :=
  if diag.isEmpty then .error .indexError
  else .ok (((ofType diag type).filter (fun r => decide (r.cycle > 100))).map
    (fun r => (r.cycle, divN (r.val metric) (reference diag metric))))

/-- `Series.cumsum()`: NaN stays NaN and is skipped in the sum (featurizer_helpers.py:484-485) -/
def cumsumFrom (acc : Rat) : List (Option Rat) → List (Option Rat)
  | [] => []
  | none :: vs => none :: cumsumFrom acc vs
  | some v :: vs => some (acc + v) :: cumsumFrom (acc + v) vs

/-- `Series.cumsum()`, featurizer_helpers.py:484-485 -/
def cumsum (vs : List (Option Rat)) : List (Option Rat) := cumsumFrom 0 vs

/-- featurizer_helpers.py:471-474 -/
def normalizeQty (metric : String) : String :=
  if containsSub "energy".toList metric.toList then "discharge_energy" else "discharge_capacity"

/-- the regular cycles: not cycle 0 and not a diagnostic cycle, featurizer_helpers.py:477-482 -/
def regularOnly (reg : List RegRow) (diag : List DiagRow) : List RegRow :=
  (reg.filter (fun r => r.cycle ≠ 0)).filter (fun r => !(diag.map DiagRow.cycle).contains r.cycle)

/-- cycle index and throughput, featurizer_helpers.py:484-485 -/
def throughput (cycles : List Int) (vs : List (Option Rat)) : List (Int × Option Rat) := cycles.zip (cumsum vs)

/-- `cycle_index.max()` (featurizer_helpers.py:442-545) -/
def maxCycle : List Int → Option Int
  | [] => none
  | c :: cs => match maxCycle cs with
    | none => some c
    | some m => some (if c < m then m else c)

/-- the first cycle whose distance from the row before is larger than one,
featurizer_helpers.py:494 -/
def firstAfterGap : List Int → Option Int
  | [] => none
  | [_] => none
  | a :: b :: cs => if b - a > 1 then some b else firstAfterGap (b :: cs)

/-- the last row with a smaller cycle, featurizer_helpers.py:495-496 -/
def lastBefore (cycles : List Int) (c : Int) : Option Int := (cycles.filter (fun d => decide (d < c))).getLast?

/-- `cycle_index <= max`: false if there is no maximum (NaN) (featurizer_helpers.py:442-545) -/
def upTo (m : Option Int) (c : Int) : Bool := match m with
  | none => false
  | some m => decide (c ≤ m)

/-- `max` of the throughput of the cycles before, featurizer_helpers.py:506, 512 -/
def throughputBefore (t : List (Int × Option Rat)) (c : Int) : Option Rat :=
  maxN ((t.filter (fun p => decide (p.1 < c))).map Prod.snd)

/-- `(1 / initial) * t` followed by `fillna(0)`, featurizer_helpers.py:504-515.  Infinity is
`none`; zero times infinity is NaN and becomes 0. -/
def normalized (initial t : Option Rat) : Option Rat :=
  match initial, t with
  | some x, some t => if x = 0 then (if t = 0 then some 0 else none) else some (1 / x * t)
  | _, _ => some 0

/-- a row of the result of `get_fractional_quantity_remaining_nx` (featurizer_helpers.py:442-545) -/
structure NxRow where
  cycle : Int
  fraction : Option Rat
  initial : Option Rat
  nRegular : Option Rat
  nDiagnostic : Option Rat
  start : Rat
  interval : Rat
  epoch : Option Int
  deriving DecidableEq, Repr

/-- `get_fractional_quantity_remaining_nx`, featurizer_helpers.py:443-545.  The protocol
parameters (`diagnostic_start_cycle`, `diagnostic_interval`) are found by a lookup that is not
modelled.  A scalar assigned to a frame without rows (502) raises `ValueError`. -/
def nx (reg : List RegRow) (diag : List DiagRow) (metric type : String) (start interval : Rat) :
    Except Err (List NxRow) :=
  let q := normalizeQty metric
  let regular := regularOnly reg diag
  let regT := throughput (regular.map RegRow.cycle) (regular.map (fun r => r.val q))
  let diagT := throughput (diag.map DiagRow.cycle) (diag.map (fun r => r.val q))
  let rows := (ofType diag type).filter (fun r => upTo (maxCycle (regular.map RegRow.cycle)) r.cycle)
  match firstAfterGap (regular.map RegRow.cycle) with
  | none => .error .indexError
  | some g => match lastBefore (regular.map RegRow.cycle) g with
    | none => .error .indexError
    | some l =>
      match (regT.filter (fun p => decide (p.1 = l))).head? with
      | none => .error .indexError
      | some p =>
        if rows.isEmpty then .error .valueError
        else .ok (rows.map (fun r =>
          ⟨r.cycle, divN (r.val metric) (reference diag metric), p.2,
           normalized p.2 (throughputBefore regT r.cycle), normalized p.2 (throughputBefore diagT r.cycle),
           start, interval, r.stamp⟩))

/-! ### DiagnosticProperties -/

/-- a row of the frame given to `get_threshold_targets`.  Fraction and axes are present
(simplification) (core.py:808-916). -/
structure TRow where
  cycleType : String
  metric : String
  cycle : Int
  fraction : Rat
  initial : Rat
  nRegular : Rat
  nDiagnostic : Rat
  start : Rat
  interval : Rat
  epoch : Rat
  deriving DecidableEq, Repr

/-- the numeric columns by name (core.py:808-916) -/
def axisOf (axis : String) : Option (TRow → Rat) :=
  if axis = "cycle_index" then some (fun r => r.cycle)
  else if axis = "fractional_metric" then some TRow.fraction
  else if axis = "initial_regular_throughput" then some TRow.initial
  else if axis = "normalized_regular_throughput" then some TRow.nRegular
  else if axis = "normalized_diagnostic_throughput" then some TRow.nDiagnostic
  else if axis = "diagnostic_start_cycle" then some TRow.start
  else if axis = "diagnostic_interval" then some TRow.interval
  else if axis = "epoch_time" then some TRow.epoch
  else none

/-- `df['fractional_metric'].diff().diff()` (core.py:830-832) -/
def secondDiff (df : List TRow) : List (Option Rat) := diff (diff (df.map (fun r => some r.fraction)))

/-- the cycles at which the second difference is below the cutoff, core.py:830-832 -/
def kinks (k : Rat) (df : List TRow) : List Int :=
  ((df.zip (secondDiff df)).filter (fun p => match p.2 with
    | none => false
    | some d => decide (d < k))).map (fun p => p.1.cycle)

/-- `cycle_index.min()` (core.py:830-832) -/
def minCycle : List Int → Option Int
  | [] => none
  | c :: cs => match minCycle cs with
    | none => some c
    | some m => some (if m < c then m else c)

/-- core.py:829-833: `if filter_kinks` is false for `None` and for 0 -/
def filterKinks (k : Option Rat) (df : List TRow) : List TRow :=
  match k with
  | none => df
  | some k => if k = 0 then df else match minCycle (kinks k df) with
    | none => df
    | some c => df.filter (fun r => decide (r.cycle < c))

/-- a distance as a float (core.py:808-916) -/
inductive Dist
  | val (r : Rat)
  | inf
  | nan
  deriving DecidableEq, Repr

/-- the points of `interp1d`, sorted by the axis (stable) (core.py:873) -/
def points (df : List TRow) (ax : TRow → Rat) : List (Rat × Rat) :=
  sortBy (fun p q => decide (p.1 ≤ q.1)) (df.map (fun r => (ax r, r.fraction)))

/-- `interp1d` delegated to `numpy.interp` within the range: the last point at or below `x`, its
value if it is at `x` or the last one, else the line to the next point (core.py:873) -/
def evalNp : List (Rat × Rat) → Rat → Option Rat
  | [], _ => none
  | [(_, y)], _ => some y
  | (x0, y0) :: (x1, y1) :: rest, x =>
    if x1 ≤ x then evalNp ((x1, y1) :: rest) x
    else if x0 = x then some y0
    else some (y0 + (y1 - y0) / (x1 - x0) * (x - x0))

/-- the segment used by scipy's own linear interpolation: the first point at or above `x`, but not
the first and not beyond the last one, with the point before (core.py:873) -/
def segment : List (Rat × Rat) → Rat → Option ((Rat × Rat) × (Rat × Rat))
  | [], _ => none
  | [_], _ => none
  | [a, b], _ => some (a, b)
  | a :: b :: c :: rest, x => if x ≤ b.1 then some (a, b) else segment (b :: c :: rest) x

/-- `|f(x) - threshold|`.  With a segment of length zero the slope is infinite or NaN; it is
multiplied by zero or not (core.py:873-888). -/
def distSp (pts : List (Rat × Rat)) (thr x : Rat) : Dist :=
  match segment pts x with
  | none => .nan
  | some (a, b) =>
    if b.1 = a.1 then (if x = a.1 ∨ b.2 = a.2 then .nan else .inf)
    else .val (absR (a.2 + (b.2 - a.2) / (b.1 - a.1) * (x - a.1) - thr))

/-- `|f(x) - threshold|` when `numpy.interp` is used, core.py:873-888 -/
def distNp (pts : List (Rat × Rat)) (thr x : Rat) : Dist :=
  match evalNp pts x with
  | none => .nan
  | some y => .val (absR (y - thr))

/-- `a` comes before `b` for `np.argmin` (`a` is the earlier element): NaN is the smallest
(core.py:888) -/
def notAfter : Dist → Dist → Bool
  | .nan, _ => true
  | _, .nan => false
  | .val a, .val b => decide (a ≤ b)
  | .val _, .inf => true
  | .inf, .inf => true
  | .inf, .val _ => false

/-- `x_linspace[np.argmin(crossing_array)]`: the first place with the smallest distance
(core.py:888) -/
def argmin (d : Rat → Dist) : List Rat → Option Rat
  | [] => none
  | x :: xs => match argmin d xs with
    | none => some x
    | some y => some (if notAfter (d x) (d y) then x else y)

/-- `df[axis].min()`, `.max()` (core.py:860, 868) -/
def minR (l : List Rat) : Rat := (minN (l.map some)).getD 0
/-- `df[axis].max()`, core.py:868 -/
def maxR (l : List Rat) : Rat := (maxN (l.map some)).getD 0

/-- threshold crossing along one axis for data that have crossed, core.py:862-868 and 870-888.
`np` says whether the dtype of the axis lets scipy delegate to `numpy.interp` (float64, int64). -/
def crossed (np : Bool) (thr : Rat) (df : List TRow) (ax : TRow → Rat) : Option Rat :=
  let pts := points df ax
  argmin (if np then distNp pts thr else distSp pts thr)
    (Interp.linspace (minR (df.map ax)) (maxR (df.map ax)) 1000)

/-- threshold crossing by extrapolation, core.py:847-861: the end of the grid is where the line
through the last two rows is at `thr - 0.1`.  Equal fractions there give a grid of NaN (`none`). -/
def extrapolated (thr : Rat) (df : List TRow) (ax : TRow → Rat) (r1 r2 : TRow) : Option Rat :=
  if r2.fraction = r1.fraction then none
  else
    let e := (thr - 1 / 10 - r1.fraction) * (ax r2 - ax r1) / (r2.fraction - r1.fraction) + ax r1
    argmin (distSp (points df ax) thr) (Interp.linspace (minR (df.map ax)) e 1000)

/-- the hyperparameters of `DiagnosticProperties` used for the threshold; `threshold` with its
text (core.py:718-916) -/
structure Hyper where
  cycleType : String
  metric : String
  axes : List String
  threshold : Rat
  thresholdText : String
  filterKinks : Option Rat
  extrapolate : Bool

/-- the values along the axes, core.py:835-888.  Neither `raise` nor assignment in the first
branch (841-846): the name `x_linspaces` is unbound.  Fewer than two rows are not modelled
(`indexError`). -/
def crossings (np : String → Bool) (h : Hyper) (df : List TRow) (axs : List (String × (TRow → Rat))) :
    Except Err (List (Option Rat)) :=
  match df.reverse with
  | r2 :: r1 :: _ =>
    if minR (df.map TRow.fraction) > h.threshold then
      if h.extrapolate then .ok (axs.map (fun a => extrapolated h.threshold df a.2 r1 r2))
      else .error .unboundLocal
    else .ok (axs.map (fun a => crossed (np a.1) h.threshold df a.2))
  | _ => .error .indexError

/-- `x > 0` (core.py:808-916) -/
def positive : Option Rat → Bool
  | some x => decide (x > 0)
  | none => false

/-- the columns in order, core.py:906-914 (a later column of the same name replaces an earlier
one: `Dict.set`) -/
def label (h : Hyper) (axis : String) : String := h.cycleType ++ h.metric ++ h.thresholdText ++ "_" ++ axis

/-- the axes by name, core.py:808-916: an unknown one raises -/
def collectAxes : List String → Except Err (List (String × (TRow → Rat)))
  | [] => .ok []
  | a :: as => match axisOf a with
    | none => .error .keyError
    | some f => match collectAxes as with
      | .error e => .error e
      | .ok fs => .ok ((a, f) :: fs)

/-- `DiagnosticProperties.get_threshold_targets`, core.py:808-916, on the rows of all quantities
and cycle types -/
def thresholdTargets (np : String → Bool) (h : Hyper) (df : List TRow) : Except Err (Dict String (Option Rat)) :=
  let df := filterKinks h.filterKinks df
  match collectAxes h.axes with
  | .error e => .error e
  | .ok axs => match crossings np h df axs with
    | .error e => .error e
    | .ok xs => match xs with
      | [] => .error .indexError
      | x0 :: rest =>
        if !positive x0 then .error .beepError
        else match rest with
          | [] => .error .indexError
          | x1 :: _ =>
            if !positive x1 then .error .beepError
            else
              let init := (df.head?.map TRow.initial)
              let real := match (h.axes.zip xs).find? (fun p => p.1 == "normalized_regular_throughput") with
                | none => []
                | some p => [("real_regular_throughput", match p.2, init with
                    | some n, some i => some (n * i)
                    | _, _ => none)]
              .ok ((h.axes.zip xs ++ real).foldl (fun d p => Dict.set d (label h p.1) p.2)
                [("initial_regular_throughput", init)])

/-- the frame given to `get_threshold_targets`, core.py:790-804: the rows of each quantity and each
type of the diagnostic summary -/
def frame (reg : List RegRow) (diag : List DiagRow) (quantities : List String) (start interval : Rat) :
    Except Err (List (String × String × NxRow)) :=
  Interp.collect (fun p : String × String => match nx reg diag p.1 p.2 start interval with
    | .error e => .error e
    | .ok rows => .ok (rows.map (fun r => (p.2, p.1, r))))
    (quantities.flatMap (fun q => (unique (diag.map DiagRow.type)).map (fun t => (q, t))))

/-- the rows as `get_threshold_targets` sees them; a frame with a missing value is not modelled
(`none`) (core.py:718-916) -/
def toT (p : String × String × NxRow) : Option TRow :=
  match p.2.2.fraction, p.2.2.initial, p.2.2.nRegular, p.2.2.nDiagnostic, p.2.2.epoch with
  | some f, some i, some a, some b, some e =>
    some ⟨p.1, p.2.1, p.2.2.cycle, f, i, a, b, p.2.2.start, p.2.2.interval, e⟩
  | _, _, _, _, _ => none

/-! ### ExclusionCriteria -/

/-- a row of the interpolated data (no value missing: simplification) (core.py:919-1075) -/
structure DataRow where
  cycle : Int
  stepType : String
  seg : Segments.Row
  deriving DecidableEq, Repr

/-- hyperparameters, core.py:940-946, and the values of the parameter file: nominal capacity,
`charge_constant_current_1`, `charge_constant_current_2`, diagnostic start and interval (the lookup is not modelled) -/
structure EHyper where
  n : Int
  cutoff : Rat
  eolType : String
  eolThreshold : Rat
  eolQuantity : String
  efcCutoff : Rat
  earlyCV : Rat
  nominal : Rat
  cc1 : Rat
  cc2 : Rat
  start : Rat
  interval : Rat

/-- a row of the features (core.py:919-1075) -/
structure ERow where
  firstN : Option Rat
  aboveN : Option Bool
  fractionEOT : Option Rat
  belowEOT : Option Bool
  efc : Option Rat
  aboveEfc : Option Bool
  notEarly : Bool
  toInclude : Bool
  deriving DecidableEq, Repr

/-- `fillna(method='ffill')` (core.py:989-994, 1025-1026) -/
def ffillFrom (last : Option Rat) : List (Option Rat) → List (Option Rat)
  | [] => []
  | none :: vs => last :: ffillFrom last vs
  | some v :: vs => some v :: ffillFrom (some v) vs

/-- `fillna(method='ffill')`, core.py:989-994, 1025-1026 -/
def ffill (vs : List (Option Rat)) : List (Option Rat) := ffillFrom none vs

/-- `x < t`, `x > t`: false for NaN (core.py:919-1075) -/
def ltN (x : Option Rat) (t : Rat) : Bool := match x with
  | none => false
  | some v => decide (v < t)

/-- `x > t`: false for NaN, core.py:919-1075 -/
def gtN (x : Option Rat) (t : Rat) : Bool := match x with
  | none => false
  | some v => decide (v > t)

/-- the fractions at the end of the test, core.py:989-994 -/
def eots (fs : List (Option Rat)) : List (Option Rat) :=
  let f := ffill fs
  let one := f.drop (f.length - 1)
  if gtN (one.head?.join) 1 then f.drop (f.length - 2) else one

/-- an `is_` cell in `all([...])`: NaN counts as true (core.py:919-1075) -/
def truthy : Option Bool → Bool
  | none => true
  | some b => b

/-- the loop of core.py:1049-1068: true when no cycle is early -/
def noEarly (cutoff : Rat) (data : List DataRow) : List Int → Except Err Bool
  | [] => .ok true
  | c :: cs =>
    let rows := data.filter (fun r => r.cycle = c)
    let charge := (rows.filter (fun r => r.stepType = "charge")).map DataRow.seg
    match (Segments.cvSegment {} charge).head? with
    | none => .error .indexError
    | some r =>
      let t0 := minR (rows.map (fun r => r.seg.time))
      let t1 := maxR (rows.map (fun r => r.seg.time))
      if t1 = t0 then .error .zeroDivision
      else if (r.time - t0) / (t1 - t0) < cutoff then .ok false
      else noEarly cutoff data cs

/-- the cycle the test is judged at, core.py:1004-1012 -/
def cutoffCycle (thr : Rat) (below : Bool) (rows : List NxRow) : Option Int :=
  if below then (rows.find? (fun r => ltN r.fraction thr)).map NxRow.cycle
  else rows.getLast?.map NxRow.cycle

/-- `ExclusionCriteria.create_features`, core.py:967-1075.  Columns are aligned by position: the
first non-empty column fixes the rows, and positions without a value are NaN.  A column assigned to
a frame that has columns but no rows adds the rows, with NaN in the columns already there. -/
def exclusion (h : EHyper) (reg : List RegRow) (diag : List DiagRow) (data : List DataRow) :
    Except Err (List ERow) :=
  let first := (reg.filter (fun r => r.label = h.n)).map (fun r => (r.val "charge_throughput").getD 0)
  match nx reg diag h.eolQuantity h.eolType h.start h.interval with
  | .error e => .error e
  | .ok rows =>
    let eot := eots (rows.map NxRow.fraction)
    match cutoffCycle h.eolThreshold (ltN (eot.head?.join) h.eolThreshold) rows with
    | none => .error .indexError
    | some cut =>
      let last := maxCycle ((reg.filter (fun r => decide (r.cycle ≤ cut))).map RegRow.cycle)
      let through := (reg.map RegRow.cycle).zip (ffill (reg.map (fun r => r.val "charge_throughput")))
      let efc := (through.filter (fun p => some p.1 = last)).map Prod.snd
      if h.nominal = 0 ∧ efc ≠ [] then .error .zeroDivision
      else match (if h.cc1 ≤ h.cc2 then .ok true
          else noEarly h.earlyCV data ((reg.filter (fun r => decide (r.cycle ≤ cut))).map RegRow.cycle)) with
        | .error e => .error e
        | .ok notEarly =>
          let k := if first.isEmpty then eot.length else first.length
          .ok ((List.range k).map (fun i =>
            let a := (first[i]?).map (fun v => decide (v > h.cutoff))
            let b := (eot[i]?).map (fun v => ltN v h.eolThreshold)
            let e := (efc[i]?).join.map (fun v => v / h.nominal)
            let c := (efc[i]?).map (fun _ => gtN e h.efcCutoff)
            ⟨first[i]?, a, (eot[i]?).join, b, e, c, notEarly, truthy a && truthy b && truthy c && notEarly⟩))

end Beep.Degradation
