import Verif.Model.CoreFeatures
import Verif.Model.Interp
/-
Intracell analysis: emulating a full cell from its two electrodes, `beep/features/intracell_analysis.py`
(version 1, states of charge), `beep/features/intracell_analysis_v2.py` (version 2, capacities) and the featurizers of
`beep/features/intracell_losses.py` and `beep/features/intracell_losses_v2.py`.

The optimiser (`differential_evolution`) and the distances it minimises are arbitrary functions here.  Arithmetic is exact.
-/
namespace Beep.Intracell
open Beep Pandas
open Beep.Interp (linspace)

/-- a frame with the columns `SOC_aligned` (or `Q_aligned`) and `Voltage_aligned`.  States of charge and capacities are
taken to be present (intracell_analysis.py:20-52). -/
abbrev Curve := List (Rat × Option Rat)

/-- the straight line between two points; NaN if one of the values is
(the interpolations of intracell_analysis.py:746-758) -/
def line (x0 : Rat) (y0 : Option Rat) (x1 : Rat) (y1 : Option Rat) (x : Rat) : Option Rat := match y0, y1 with
  | some a, some b => some (a + (b - a) * ((x - x0) / (x1 - x0)))
  | _, _ => none

/-- linear interpolation between points in ascending order, NaN outside
(the interpolations of intracell_analysis.py:746-758) -/
def interpSorted : Curve → Rat → Option Rat
  | [], _ => none
  | [(x0, y0)], x => if x = x0 then y0 else none
  | (x0, y0) :: (x1, y1) :: rest, x =>
    if x < x0 then none
    else if x = x0 then y0
    else if x < x1 then line x0 y0 x1 y1 x
    else interpSorted ((x1, y1) :: rest) x

/-- the points in ascending order (`interp1d` sorts them)
(the interpolations of intracell_analysis.py:746-758) -/
def sorted (c : Curve) : Curve := sortBy (fun p q => decide (p.1 ≤ q.1)) c

/-- `scipy.interpolate.interp1d(x, y, bounds_error=False)(x)`; it models scipy, not a file of /repo.  The value at a
repeated `x` is that of the first point (simplification) (used at intracell_analysis.py:746-758). -/
def interp (c : Curve) (x : Rat) : Option Rat := interpSorted (sorted c) x

/-- `interp1d(x, y, bounds_error=False, fill_value=(below, above))(x)`
(used at intracell_analysis.py:1197-1200) -/
def interpFill (below above : Rat) (c : Curve) (x : Rat) : Option Rat :=
  match minN (c.map (fun p => some p.1)), maxN (c.map (fun p => some p.1)) with
  | some a, some b => if x < a then some below else if b < x then some above else interp c x
  | _, _ => none

/-- rows with a voltage (`.loc[~Voltage_aligned.isna()]`) (intracell_analysis.py:1225-1227) -/
def present (c : Curve) : Curve := c.filter (fun p => p.2.isSome)

/-- `np.min` and `np.max` of the first column (intracell_analysis.py:692-758) -/
def range (c : Curve) : Option (Rat × Rat) :=
  match minN (c.map (fun p => some p.1)), maxN (c.map (fun p => some p.1)) with
  | some a, some b => some (a, b)
  | _, _ => none

/-- `np.argmin` of a pandas Series: position of the first least value, NaN skipped
(used at intracell_analysis.py:712, 1242-1244) -/
def argminN (vs : List (Option Rat)) : Option Nat := match minN vs with
  | none => none
  | some m => vs.findIdx? (fun v => decide (v = some m))

/-- `np.abs(voltage - v)` (intracell_analysis.py:1242-1244) -/
def dist (v : Rat) (w : Option Rat) : Option Rat := w.map (fun x => absR (x - v))

/-- `np.argmin(np.abs(voltage - v))` (intracell_analysis.py:1242-1244) -/
def nearest (v : Rat) (vs : List (Option Rat)) : Option Nat := argminN (vs.map (dist v))

/-- the full cell: voltage of the positive electrode minus that of the negative electrode, row by row
(intracell_analysis.py:903-965, intracell_analysis_v2.py:175-284) -/
def fullCell (pe ne : Curve) : Curve := List.zipWith (fun p n => (p.1, subN p.2 n.2)) pe ne

/-- the voltage limits `UPPER_VOLTAGE` and `LOWER_VOLTAGE`, intracell_analysis.py:16-17, intracell_analysis_v2.py:14-15 -/
def upperV : Rat := 42 / 10
/-- `LOWER_VOLTAGE`, intracell_analysis.py:17, intracell_analysis_v2.py:15 -/
def lowerV : Rat := 27 / 10

/-- move the first column by `d` (intracell_analysis.py:692-758) -/
def moveBy (d : Rat) (c : Curve) : Curve := c.map (fun p => (p.1 + d, p.2))

/-- stretch the first column by `a` and move it by `b` (intracell_analysis.py:692-758) -/
def affine (a b : Rat) (c : Curve) : Curve := c.map (fun p => (p.1 * a + b, p.2))

/-- re-interpolation of both electrodes on 1001 points over their joint range, intracell_analysis.py:739-758 and
intracell_analysis_v2.py:152-173.  The new columns are assigned to copies of the frames, which raises `ValueError` unless
these have 1001 rows. -/
def realign (p n : Curve) : Except Err (Curve × Curve) :=
  if p.length = 1001 ∧ n.length = 1001 then
    match range (p ++ n) with
    | none => .error .valueError
    | some (a, b) => .ok ((linspace a b 1001).map (fun x => (x, interp p x)),
        (linspace a b 1001).map (fun x => (x, interp n x)))
  else .error .valueError

/-! ### blended electrodes -/

/-- linear interpolation between points in ascending order, the first and last lines continued
(`fill_value='extrapolate'`).  Fewer than two points are not modelled
(used at intracell_analysis.py:1197-1200). -/
def extrapSorted : List (Rat × Rat) → Rat → Rat
  | [], _ => 0
  | [(_, y0)], _ => y0
  | [(x0, y0), (x1, y1)], x => y0 + (y1 - y0) * ((x - x0) / (x1 - x0))
  | (x0, y0) :: (x1, y1) :: p :: rest, x =>
    if x ≤ x1 then y0 + (y1 - y0) * ((x - x0) / (x1 - x0)) else extrapSorted ((x1, y1) :: p :: rest) x

/-- the points (voltage, state of charge) of an electrode.  Missing voltages in the files are not modelled
(intracell_analysis.py:1176-1233). -/
def byVoltage (c : Curve) : List (Rat × Rat) :=
  sortBy (fun p q => decide (p.1 ≤ q.1)) (c.filterMap (fun p => p.2.map (fun v => (v, p.1))))

/-- state of charge of an electrode at a voltage, intracell_analysis.py:1197-1200 -/
def socAt (c : Curve) (v : Rat) : Rat := extrapSorted (byVoltage c) v

/-- the second material and its fraction, intracell_analysis.py:1188-1195 -/
def second (pos neg : Curve) (x : Rat) : Curve × Rat :=
  if neg.isEmpty then (pos, absR x) else if 0 < x then (pos, x) else (neg, absR x)

/-- the mixture of two materials over their voltages, intracell_analysis.py:1202-1215 -/
def mixture (e1 e2 : Curve) (x a b : Rat) : Curve :=
  (linspace a b 1001).map (fun v => ((1 - x) * socAt e1 v + x * socAt e2 v, some v))

/-- `blend_electrodes`, intracell_analysis.py:1176-1233 and intracell_analysis_v2.py:935-997.  A blend whose only state
of charge in 0 to 100 is 0 (numpy: NaN) is refused in the model. -/
def blend (e1 pos neg : Curve) (x2 : Rat) : Except Err Curve :=
  if pos.isEmpty then .ok e1                                                        -- 1184-1186
  else
    let e2 := (second pos neg x2).1
    let x := (second pos neg x2).2
    let volts := e1.map Prod.snd ++ e2.map Prod.snd
    match minN volts, maxN volts with
    | some a, some b =>
      let mix := mixture e1 e2 x a b
      let first := present ((linspace 0 100 1001).map (fun s => (s, interp mix s)))     -- 1217-1222
      match range first with
      | some (lo, hi) =>
        if hi = 0 then .error .valueError
        else .ok ((linspace lo hi 1001).map (fun s => (s / hi * 100, interp first s)))  -- 1225-1232
      | none => .error .valueError
    | _, _ => .error .valueError

/-! ### version 2: capacities -/

/-- `_impose_electrode_scale`, intracell_analysis_v2.py:110-173 -/
def imposeScale (pe ne1 pos neg : Curve) (lli qpe qne x2 : Rat) : Except Err (Curve × Curve) :=
  match blend ne1 pos neg x2 with
  | .error e => .error e
  | .ok ne => realign (affine (qpe / 100) 0 pe) (affine (qne / 100) lli ne)

/-- values outside of the voltage limits become NaN, intracell_analysis_v2.py:229-233 -/
def clip (v : Option Rat) : Option Rat := match v with
  | some x => if x < lowerV then none else if upperV < x then none else some x
  | none => none

/-- a frame with clipped voltages (intracell_analysis.py:1176-1233) -/
def clipped (c : Curve) : Curve := c.map (fun p => (p.1, clip p.2))

/-- what `halfcell_degradation_matching_ah` and `halfcell_degradation_matching_v3` return
(intracell_analysis.py:903-965, intracell_analysis_v2.py:175-284) -/
structure Matched where
  pe : Curve
  ne : Curve
  real : Curve
  emulated : Curve
  deriving DecidableEq, Repr

/-- both profiles on 1001 points over the range of the measured one, intracell_analysis_v2.py:255-284 and
intracell_analysis.py:936-965 -/
def onReal (real pe ne emulated : Curve) : Except Err Matched :=
  match range (present real) with
  | none => .error .valueError
  | some (a, b) =>
    .ok ⟨pe, ne, (linspace a b 1001).map (fun x => (x, interp (present real) x)),
      (linspace a b 1001).map (fun x => (x, interp (present emulated) x))⟩

/-- `halfcell_degradation_matching_ah`, intracell_analysis_v2.py:175-284.  `np.nanargmin` raises `ValueError` when no
voltage is left. -/
def matchAh (pe ne1 pos neg : Curve) (lli qpe qne x2 : Rat) (real : Curve) : Except Err Matched :=
  match imposeScale pe ne1 pos neg lli qpe qne x2 with
  | .error e => .error e
  | .ok (p, n) =>
    let full := clipped (fullCell p n)
    match argminN (full.map Prod.snd) with
    | none => .error .valueError
    | some k => match full[k]? with
      | none => .error .indexError
      | some z => onReal real (moveBy (- z.1) p) (moveBy (- z.1) n) (moveBy (- z.1) full)

/-- the three representations in which the error of a fit is measured
(intracell_analysis_v2.py:175-284) -/
inductive Metric where
  | vq | dvdq | dqdv
  deriving DecidableEq, Repr

/-- `_get_error_from_degradation_matching_ah`: the metric for an error type, intracell_analysis_v2.py:608-635 -/
def metricOf (errorType : String) : Metric :=
  if errorType = "V-Q" then .vq
  else if errorType = "dVdQ" then .dvdq
  else if errorType = "dQdV" then .dqdv
  else .vq

/-- `_get_error_from_synthetic_fitting_ah`: the metric for an error type, intracell_analysis_v2.py:793-806 -/
def metricSynthetic (errorType : String) : Metric :=
  if errorType = "V-Q" then .vq
  else if errorType = "dVdQ" then .dvdq
  else if errorType = "dQdV" then .dvdq
  else .vq

/-- the full cell voltages of the report and their labels, intracell_analysis_v2.py:1049-1080 -/
def levels : List (String × Rat) :=
  [("4p2V", 42 / 10), ("4p1V", 41 / 10), ("4p0V", 40 / 10), ("3p9V", 39 / 10), ("3p8V", 38 / 10), ("3p7V", 37 / 10),
   ("3p6V", 36 / 10), ("3p5V", 35 / 10), ("3p4V", 34 / 10), ("3p3V", 33 / 10), ("3p2V", 32 / 10), ("3p1V", 31 / 10),
   ("3p0V", 30 / 10), ("2p9V", 29 / 10), ("2p8V", 28 / 10), ("2p7V", 27 / 10)]

/-- the electrode voltage in a row (intracell_analysis_v2.py:1000-1324) -/
def voltIn (e : Curve) (k : Nat) : Option Rat := match e[k]? with
  | some p => p.2
  | none => none

/-- the state of charge of an electrode in a row, as a fraction of the range with a voltage.  A range of width 0 gives NaN
(intracell_analysis_v2.py:1000-1324). -/
def socIn (e : Curve) (k : Nat) : Option Rat := match e[k]?, range (present e) with
  | some p, some (lo, hi) => if hi = lo then none else some ((p.1 - lo) / (hi - lo))
  | _, _ => none

/-- width of the range with a voltage (intracell_analysis_v2.py:1000-1324) -/
def span (e : Curve) : Option Rat := (range (present e)).map (fun r => r.2 - r.1)

/-- `get_electrode_info_ah`, intracell_analysis_v2.py:1000-1324.  Without a single common voltage `np.argmin` gives -1 and
`.loc[-1]` raises `KeyError`; with one there is a nearest row for every voltage. -/
def electrodeInfo (pe ne : Curve) : Except Err (List (String × Option Rat)) :=
  let full := fullCell pe ne
  let row (v : Rat) : Option Nat := nearest v (full.map Prod.snd)
  match row upperV with
  | none => .error .keyError
  | some k =>
    .ok (levels.map (fun l => ("pe_voltage_FC" ++ l.1, (row l.2).bind (voltIn pe)))  -- 1049-1080
      ++ levels.map (fun l => ("pe_soc_FC" ++ l.1, (row l.2).bind (socIn pe)))       -- 1082-1177
      ++ levels.map (fun l => ("ne_voltage_FC" ++ l.1, (row l.2).bind (voltIn ne)))  -- 1179-1210
      ++ levels.map (fun l => ("ne_soc_FC" ++ l.1, (row l.2).bind (socIn ne)))       -- 1212-1307
      ++ [("Q_fc", (full[k]?).map Prod.fst),                                         -- 1309-1310
          ("Q_pe", span pe), ("Q_ne", span ne), ("Q_li", span full)])                -- 1312-1322

/-- a row of the interpolated diagnostic data
(intracell_analysis.py:54-155, intracell_analysis_v2.py:64-108) -/
structure Row where
  cycle : Int
  cycleType : String
  stepType : Nat
  volt : Option Rat
  chg : Option Rat
  dchg : Option Rat
  deriving DecidableEq, Repr

/-- `capacity_col`, intracell_analysis_v2.py:55-58 and intracell_analysis.py:118-121 -/
def capacity (stepType : Nat) (r : Row) : Option Rat := if stepType = 0 then r.chg else r.dchg

/-- the points (capacity, voltage) of rows; rows without a capacity are not modelled
(intracell_analysis_v2.py:64-108) -/
def points (cap : Row → Option Rat) (rows : List Row) : Curve := rows.filterMap (fun r => (cap r).map (fun q => (q, r.volt)))

/-- the rows of a candidate cycle, intracell_analysis_v2.py:81-86 and intracell_analysis.py:70-75 -/
def candidateRows (type : String) (stepType : Nat) (rows : List Row) (cycle : Int) : List Row :=
  rows.filter (fun r => decide (r.cycleType = type) && decide (r.cycle = cycle) && decide (r.stepType = 0)
    && r.volt.any (fun v => decide (v < upperV)) && (capacity stepType r).any (fun q => decide (0 < q)))

/-- `process_beep_cycle_data_for_candidate_halfcell_analysis_ah`, intracell_analysis_v2.py:64-108 -/
def candidate (type : String) (stepType : Nat) (rows : List Row) (cycle : Int) : Except Err Curve :=
  let pts := points Row.chg (candidateRows type stepType rows cycle)
  match range pts with
  | none => .error .valueError
  | some (_, hi) => .ok ((linspace 0 hi 1001).map (fun q => (q, interpFill lowerV upperV pts q)))

/-! ### version 1: states of charge -/

/-- the state of charge at which the upper voltage limit is hit, intracell_analysis.py:711-715.  (`.loc[-1]` without a
common voltage raises `KeyError`.) -/
def upperSetpoint (pe ne : Curve) : Except Err Rat :=
  match nearest upperV ((fullCell pe ne).map Prod.snd) with
  | some k => match pe[k]? with
    | some p => .ok p.1
    | none => .error .keyError
  | none => .error .keyError

/-- "SOC at which the lower voltage limit is hit", intracell_analysis.py:722-725.  No absolute value is taken. -/
def lowerSetpoint (pe ne : Curve) : Except Err Rat :=
  match argminN (((fullCell pe ne).map Prod.snd).map (fun v => v.map (fun x => x - lowerV))) with
  | some k => match ne[k]? with
    | some p => .ok p.1
    | none => .error .keyError
  | none => .error .keyError

/-- `_impose_degradation`, intracell_analysis.py:692-758 -/
def imposeDegradation (pe ne1 pos neg : Curve) (lli lamPe lamNe x2 : Rat) : Except Err (Curve × Curve) :=
  match blend ne1 pos neg x2 with
  | .error e => .error e
  | .ok ne => match upperSetpoint pe ne, lowerSetpoint pe ne with
    | .ok u, .ok l => realign (affine (1 - lamPe / 100) (lamPe * u / 100) pe)
        (affine (1 - lamNe / 100) (lli + lamNe * l / 100) ne)
    | .error e, _ => .error e
    | _, .error e => .error e

/-- `halfcell_degradation_matching_v3`, intracell_analysis.py:903-965.  Without a common voltage the curves are NaN and
`interp1d` raises `ValueError`. -/
def matchV3 (pe ne1 pos neg : Curve) (lli lamPe lamNe x2 : Rat) (real : Curve) : Except Err Matched :=
  match imposeDegradation pe ne1 pos neg lli lamPe lamNe x2 with
  | .error e => .error e
  | .ok (p, n) =>
    match range (present (fullCell p n)) with
    | none => .error .valueError
    | some (lo, _) => onReal real (moveBy (- lo) p) (moveBy (- lo) n) (moveBy (- lo) (fullCell p n))

/-- the first row with this voltage: `.loc[Voltage_aligned == v]…values[0]`
(intracell_analysis.py:1236-1282) -/
def rowWith (e : Curve) (v : Option Rat) : Option Nat := match v with
  | none => none
  | some x => e.findIdx? (fun p => decide (p.2 = some x))

/-- the report of version 1 (intracell_analysis.py:1236-1282) -/
structure Halfcell where
  peUpperV : Option Rat
  peLowerV : Option Rat
  peUpperSoc : Option Rat
  peLowerSoc : Option Rat
  peMass : Option Rat
  neUpperV : Option Rat
  neLowerV : Option Rat
  neUpperSoc : Option Rat
  neLowerSoc : Option Rat
  neMass : Option Rat
  socUpper : Rat
  socLower : Rat
  liMass : Option Rat
  deriving DecidableEq, Repr

/-- the first row at a state of charge: `.loc[SOC_aligned == soc].Voltage_aligned.values[0]`, intracell_analysis.py:1246 -/
def voltAtSoc (e : Curve) (s : Rat) : Option (Option Rat) := (e.find? (fun p => decide (p.1 = s))).map Prod.snd

/-- the state of charge at a voltage, in percent of the range, intracell_analysis.py:1249-1253.  No row with this voltage:
`.values[0]` raises `IndexError`. -/
def socAtVolt (e : Curve) (v : Option Rat) : Except Err (Option Rat) := match rowWith e v with
  | none => .error .indexError
  | some k => .ok ((socIn e k).map (fun f => f * 100))

/-- voltage and state of charge of an electrode where the full cell is at a state of charge,
intracell_analysis.py:1246-1258 and 1262-1273 -/
def electrodeAt (e : Curve) (s : Rat) : Except Err (Option Rat × Option Rat) := match voltAtSoc e s with
  | none => .error .indexError
  | some v => match socAtVolt e v with
    | .error e => .error e
    | .ok soc => .ok (v, soc)

/-- the state of charge of the full cell nearest to a voltage, intracell_analysis.py:1241-1244.  Without a common voltage
`.iloc[-1]` takes the last row. -/
def socNearest (full : Curve) (v : Rat) : Except Err Rat := match nearest v (full.map Prod.snd) with
  | some k => match full[k]? with
    | some p => .ok p.1
    | none => .error .indexError
  | none => match full.getLast? with
    | some p => .ok p.1
    | none => .error .indexError

/-- `get_halfcell_voltages`, intracell_analysis.py:1236-1282 -/
def halfcellVoltages (pe ne : Curve) : Except Err Halfcell :=
  let full := fullCell pe ne
  match socNearest full upperV, socNearest full lowerV with
  | .ok u, .ok l =>
    match electrodeAt pe u, electrodeAt pe l, electrodeAt ne u, electrodeAt ne l with
    | .ok pu, .ok pl, .ok nu, .ok nl =>
      .ok ⟨pu.1, pl.1, pu.2, pl.2, span pe, nu.1, nl.1, nu.2, nl.2, span ne, u, l, span full⟩
    | _, _, _, _ => .error .indexError
  | _, _ => .error .indexError

/-- the rows of the first cycle, intracell_analysis.py:127-131 -/
def initialRows (type : String) (stepType : Nat) (rows : List Row) (cycle : Int) : List Row :=
  rows.filter (fun r => decide (r.cycleType = type) && decide (r.cycle = cycle) && decide (r.stepType = stepType)
    && r.volt.any (fun v => decide (v < upperV)) && r.volt.any (fun v => decide (lowerV < v)))

/-- normalise capacities to 0 to 100, intracell_analysis.py:133-142.  A range of width 0 (numpy: NaN) is refused in the
model. -/
def normalise (c : Curve) : Except Err Curve := match range c with
  | none => .error .valueError
  | some (lo, hi) => if hi = lo then .error .valueError else .ok (c.map (fun p => ((p.1 - lo) / (hi - lo) * 100, p.2)))

/-- `process_beep_cycle_data_for_initial_halfcell_analysis`, intracell_analysis.py:104-155: the profile on 1001 states of
charge.  `summary` holds cycle index and cycle type of the diagnostic summary. -/
def initial (type : String) (stepType : Nat) (summary : List (Int × String)) (rows : List Row) : Except Err Curve :=
  match (summary.filter (fun s => decide (s.2 = type))).head? with
  | none => .error .indexError
  | some s => match normalise (points (capacity stepType) (initialRows type stepType rows s.1)) with
    | .error e => .error e
    | .ok c => .ok ((linspace 0 100 1001).map (fun x => (x, interp c x)))

/-- the first profile as `intracell_wrapper_init` gets it, intracell_analysis.py:1070-1071: the step type of the object is
not passed on -/
def wrapperInitial (type : String) (_stepType : Nat) (summary : List (Int × String)) (rows : List Row) : Except Err Curve :=
  initial type 0 summary rows

/-- `process_beep_cycle_data_for_candidate_halfcell_analysis`, intracell_analysis.py:54-102, with the capacity range
`lo` to `hi` of the first profile, whose largest state of charge with a voltage is `top`.  `capacity_col` is the one of
the first profile (step type 0 through `intracell_wrapper_init`). -/
def candidateV1 (type : String) (rows : List Row) (lo hi top : Rat) (cycle : Int) : Except Err Curve :=
  let pts : Curve := (points Row.chg (candidateRows type 0 rows cycle)).map (fun p => ((p.1 - lo) / (hi - lo) * 100, p.2))
  match range pts with
  | none => .error .valueError
  | some (_, m) => .ok ((linspace 0 m 1001).map (fun s => (s / top * 100, interpFill lowerV upperV pts s)))

/-! ### featurizers -/

/-- a row of the diagnostic summary (intracell_losses.py:41-81) -/
structure SRow where
  cycle : Int
  cycleType : String
  dchg : Option Rat
  deriving DecidableEq, Repr

/-- `THRESHOLD`, intracell_analysis.py:18 and intracell_analysis_v2.py:20 -/
def thresholdV1 : Rat := 484 / 100 * (7 / 10)
/-- `THRESHOLD`, intracell_analysis_v2.py:20 -/
def thresholdV2 : Rat := 0

/-- the cycles to analyse, intracell_losses.py:106-109 and intracell_losses_v2.py:106-109 -/
def cyclesOf (threshold : Rat) (type : String) (s : List SRow) : List Int :=
  (s.filter (fun r => decide (r.cycleType = type) && r.dchg.any (fun q => decide (threshold < q)))).map SRow.cycle

/-- `validate` of the four featurizers, intracell_losses.py:41-81 and intracell_losses_v2.py:41-81, for data with a
diagnostic (`check_diagnostic_validation`) -/
def valid (threshold : Rat) (type : String) (s : List SRow) : Bool :=
  !(cyclesOf threshold type s).isEmpty && s.any (fun r => containsSub "rpt".toList r.cycleType.toList)

/-- the fits of some cycles; a later fit of the same cycle replaces the values (`dict.update`).
intracell_losses.py:114-123 and 179-188, intracell_losses_v2.py:114-119 and 194-199 -/
def fits (fit : Int → Except Err (List (Option Rat))) : List Int → Dict Int (List (Option Rat)) →
    Except Err (Dict Int (List (Option Rat)))
  | [], d => .ok d
  | c :: cs, d => match fit c with
    | .error e => .error e
    | .ok v => fits fit cs (Dict.set d c v)

/-- the features of version 1, intracell_losses.py:126-130 -/
def namesV1 : List String :=
  ["LLI", "LAM_PE", "LAM_NE", "x_NE_2", "alpha_real", "alpha_emulated",
   "PE_upper_voltage", "PE_lower_voltage", "PE_upper_SOC", "PE_lower_SOC",
   "PE_mass", "NE_upper_voltage", "NE_lower_voltage", "NE_upper_SOC",
   "NE_lower_SOC", "NE_mass", "Li_mass"]

/-- the values of version 1 for a solution `x` of the optimiser, intracell_analysis.py:1158-1170 -/
def valuesV1 (x : List Rat) (h : Halfcell) : List (Option Rat) :=
  (List.range 6).map (fun i => x[i]?)
    ++ [h.peUpperV, h.peLowerV, h.peUpperSoc, h.peLowerSoc, h.peMass,
        h.neUpperV, h.neLowerV, h.neUpperSoc, h.neLowerSoc, h.neMass, h.liMass]

/-- the features of version 2, intracell_losses_v2.py:122-145 -/
def namesV2 : List String :=
  ["rmse_error", "LLI_opt", "Q_pe_opt", "Q_ne_opt", "x_NE_2",
   "pe_voltage_FC4p2V", "pe_voltage_FC4p1V", "pe_voltage_FC4p0V",
   "pe_voltage_FC3p9V", "pe_voltage_FC3p8V", "pe_voltage_FC3p7V",
   "pe_voltage_FC3p6V", "pe_voltage_FC3p5V", "pe_voltage_FC3p4V",
   "pe_voltage_FC3p3V", "pe_voltage_FC3p2V", "pe_voltage_FC3p1V",
   "pe_voltage_FC3p0V", "pe_voltage_FC2p9V", "pe_voltage_FC2p8V",
   "pe_voltage_FC2p7V",
   "pe_soc_FC4p2V", "pe_soc_FC4p1V", "pe_soc_FC4p0V", "pe_soc_FC3p9V",
   "pe_soc_FC3p8V", "pe_soc_FC3p7V",
   "pe_soc_FC3p6V", "pe_soc_FC3p5V", "pe_soc_FC3p4V", "pe_soc_FC3p3V",
   "pe_soc_FC3p2V", "pe_soc_FC3p1V",
   "pe_soc_FC3p0V", "pe_soc_FC2p9V", "pe_soc_FC2p8V", "pe_soc_FC2p7V",
   "ne_voltage_FC4p2V", "ne_voltage_FC4p1V", "ne_voltage_FC4p0V",
   "ne_voltage_FC3p9V", "ne_voltage_FC3p8V", "ne_voltage_FC3p7V",
   "ne_voltage_FC3p6V", "ne_voltage_FC3p5V", "ne_voltage_FC3p4V",
   "ne_voltage_FC3p3V", "ne_voltage_FC3p2V", "ne_voltage_FC3p1V",
   "ne_voltage_FC3p0V", "ne_voltage_FC2p9V", "ne_voltage_FC2p8V",
   "ne_voltage_FC2p7V",
   "ne_soc_FC4p2V", "ne_soc_FC4p1V", "ne_soc_FC4p0V", "ne_soc_FC3p9V",
   "ne_soc_FC3p8V", "ne_soc_FC3p7V",
   "ne_soc_FC3p6V", "ne_soc_FC3p5V", "ne_soc_FC3p4V", "ne_soc_FC3p3V",
   "ne_soc_FC3p2V", "ne_soc_FC3p1V",
   "ne_soc_FC3p0V", "ne_soc_FC2p9V", "ne_soc_FC2p8V", "ne_soc_FC2p7V",
   "Q_fc", "Q_pe", "Q_ne", "Q_li"]

/-- the values of version 2 for a solution `x` of the optimiser with error `err`, intracell_analysis_v2.py:871-880 -/
def valuesV2 (err : Rat) (x : List Rat) (info : List (String × Option Rat)) : List (Option Rat) :=
  some err :: (List.range 4).map (fun i => x[i]?) ++ info.map Prod.snd

/-- `create_features` of `IntracellCycles` (and version 2): a row of named values for each cycle,
intracell_losses.py:83-131, intracell_losses_v2.py:83-146.  Rows whose number of values differs from that of the names
raise `ValueError`. -/
def cycleFeatures (names : List String) (threshold : Rat) (fit : Int → Except Err (List (Option Rat))) (type : String)
    (s : List SRow) : Except Err (Dict Int (List (String × Option Rat))) :=
  match fits fit (cyclesOf threshold type s) [] with
  | .error e => .error e
  | .ok d =>
    if d.all (fun p => decide (p.2.length = names.length)) then .ok (d.map (fun p => (p.1, names.zip p.2)))
    else .error .valueError

/-- `create_features` of `IntracellFeatures` (and version 2): one row from the first two cycles,
intracell_losses.py:145-200, intracell_losses_v2.py:160-231 -/
def pairFeatures (names : List String) (threshold : Rat) (fit : Int → Except Err (List (Option Rat))) (type : String)
    (s : List SRow) : Except Err (List (String × Option Rat)) :=
  match fits fit ((cyclesOf threshold type s).take 2) [] with
  | .error e => .error e
  | .ok d =>
    if d.all (fun p => decide (p.2.length = names.length)) then
      match d with
      | a :: b :: _ => .ok ((names.map (fun n => "diag_0_" ++ n) ++ names.map (fun n => "diag_1_" ++ n)).zip (a.2 ++ b.2))
      | _ => .error .indexError
    else .error .valueError

end Beep.Intracell
