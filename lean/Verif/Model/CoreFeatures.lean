import Verif.Model.Table
import Verif.Model.Summary
/-
Model of the featurizers CycleSummaryStats, DiagnosticSummaryStats and DeltaQFastCharge,
beep/features/core.py.
-/
namespace Beep.CoreFeatures
open Beep.Pandas Beep.Table

/-- a feature value: a number (NaN is `none`), or `log10 |stat(array)|` with the named statistic,
which is left uninterpreted (variance, skewness, ... of numpy and scipy).  For "abs" and "square"
it is the logarithm of the sum of the magnitudes and of the squares (core.py:211-254). -/
inductive Val
  | num (v : Option Rat)
  | log (stat : String) (arr : List (Option Rat))
  deriving DecidableEq, Repr

/-- `a.values - b.values`: numpy broadcasting of one-dimensional arrays (core.py:170-197) -/
def minusArr (a b : List (Option Rat)) : Except Err (List (Option Rat)) :=
  if a.length = b.length then .ok (List.zipWith subN a b)
  else match b, a with
    | [y], _ => .ok (a.map (fun x => subN x y))
    | _, [x] => .ok (b.map (fun y => subN x y))
    | _, _ => .error .valueError

/-- `DEFAULT_HYPERPARAMETERS["statistics"]`, core.py:94-95 -/
def supported : List String := ["var", "min", "mean", "skew", "kurtosis", "abs", "square"]

/-- `get_summary_statistics`, core.py:211-254: always in the order of the source.  `min` of an
empty array raises. -/
def summaryStatistics (stats : List String) (arr : List Rat) : Except Err (List Val) :=
  if stats.any (fun s => !supported.contains s) then .error .valueError
  else if stats.contains "min" && arr.isEmpty then .error .valueError
  else .ok ((supported.filter (fun s => stats.contains s)).map (fun s => .log s (arr.map some)))

/-- `X.loc[0, k:k+6] = values`: seven cells; a single value is repeated (core.py:170-197) -/
def fill7 (vs : List Val) : Except Err (List Val) :=
  match vs with
  | [v] => .ok (List.replicate 7 v)
  | _ => if vs.length = 7 then .ok vs else .error .valueError

/-- difference of two arrays without the NaN, then the statistics, placed in seven cells;
core.py:163-170 and the like -/
def block (stats : List String) (a b : List (Option Rat)) : Except Err (List Val) :=
  match minusArr a b with
  | .error e => .error e
  | .ok d => match summaryStatistics stats (d.filterMap id) with
    | .error e => .error e
    | .ok vs => fill7 vs

/-- a row of the interpolated data (core.py:170-197) -/
structure IRow where
  cycle : Int
  stepType : String
  chgCap : Option Rat
  dchgCap : Option Rat
  chgEn : Option Rat
  dchgEn : Option Rat
  deriving DecidableEq, Repr

/-- rows of a cycle and step type (core.py:170-197) -/
def select (rows : List IRow) (c : Int) (st : String) : List IRow :=
  rows.filter (fun r => decide (r.cycle = c) && decide (r.stepType = st))

/-- `X.columns = [y + "_" + x for x in quantities for y in statistics]`, core.py:206-207, 472-473 -/
def names (quantities stats : List String) : List String :=
  quantities.flatMap (fun x => stats.map (fun y => y ++ "_" ++ x))

/-- assigning the columns raises when the number differs (core.py:91-254) -/
def named (ns : List String) (vs : List Val) : Except Err (Dict String Val) :=
  if ns.length = vs.length then .ok (ns.zip vs) else .error .valueError

/-- a sequence of blocks (core.py:170-197) -/
def blocks (stats : List String) : List (List (Option Rat) × List (Option Rat)) → Except Err (List Val)
  | [] => .ok []
  | p :: ps => match block stats p.1 p.2 with
    | .error e => .error e
    | .ok vs => match blocks stats ps with
      | .error e => .error e
      | .ok ws => .ok (vs ++ ws)

/-- `CycleSummaryStats.create_features`, core.py:138-209; the discharge energy is taken from the
rows of charge steps (190-193) -/
def cycleSummaryStats (stats : List String) (c0 c1 : Int) (rows : List IRow) : Except Err (Dict String Val) :=
  let d := fun (st : String) (col : IRow → Option Rat) => ((select rows c1 st).map col, (select rows c0 st).map col)
  match blocks stats [d "charge" IRow.chgCap, d "discharge" IRow.dchgCap, d "charge" IRow.chgEn, d "charge" IRow.dchgEn] with
  | .error e => .error e
  | .ok vs => named (names ["charging_capacity", "discharging_capacity", "charging_energy", "discharging_energy"] stats) vs

/-- `CycleSummaryStats.validate`, core.py:98-136 (all columns present) -/
def validCycles (c0 c1 : Int) (rows : List IRow) : Bool :=
  rows.any (fun r => r.cycle = c0) && rows.any (fun r => r.cycle = c1)

/-! ### DiagnosticSummaryStats -/

/-- a row of the interpolated diagnostic data (core.py:257-474) -/
structure DRow where
  cycle : Int
  cycleType : String
  step : Int
  counter : Int
  time : Option Rat
  chgCap : Option Rat
  dchgCap : Option Rat
  chgEn : Option Rat
  dchgEn : Option Rat
  chgDqdv : Option Rat
  dchgDqdv : Option Rat
  deriving DecidableEq, Repr

/-- a row of the diagnostic summary (core.py:257-474) -/
structure SRow where
  cycleType : String
  dchgCap : Rat
  dchgEn : Rat
  chgCap : Rat
  chgEn : Rat
  deriving DecidableEq, Repr

/-- `a / b` of floats; NaN and infinity are `none` (core.py:257-474) -/
def divR (a b : Rat) : Option Rat := if b = 0 then none else some (a / b)

/-- the metrics of `get_summary_diff` by name, core.py:310-312 -/
def metrics : List (String × (SRow → Rat)) :=
  [("discharge_capacity", SRow.dchgCap), ("discharge_energy", SRow.dchgEn), ("charge_capacity", SRow.chgCap),
   ("charge_energy", SRow.chgEn)]

/-- one entry of `get_summary_diff`, core.py:335-340 -/
def summaryDiffOne (s : List SRow) (p0 p1 : Nat) (type : String) (m : String × (SRow → Rat)) :
    Except Err (String × Val) :=
  let rows := s.filter (fun r => r.cycleType = type)
  match rows[p1]?, rows[p0]? with
  | some b, some a => .ok ("diag_sum_diff_" ++ toString p0 ++ "_" ++ toString p1 ++ "_" ++ type ++ m.1,
      .num (divR (m.2 b - m.2 a) (m.2 a)))
  | _, _ => .error .indexError

/-- `get_summary_diff`, core.py:306-341, with the default types and metrics and two positions
(not negative) -/
def summaryDiff (s : List SRow) (p0 p1 : Nat) : Except Err (List (String × Val)) :=
  Summary.mapE (fun q : String × (String × (SRow → Rat)) => summaryDiffOne s p0 p1 q.1 q.2)
    (["rpt_0.2C", "rpt_1C", "rpt_2C"].flatMap (fun t => metrics.map (fun m => (t, m))))

/-- the rows left in `datapath.diagnostic_data`, core.py:44-52 and 358-366: rows of low cycle
numbers at late times are removed, then the occurrences of a step without any time.  Step index
and counter are present. -/
def prepare (tMax : Rat) (cMin : Int) (rows : List DRow) : List DRow :=
  let kept := rows.filter (fun r => !((match r.time with
    | some t => decide (t > tMax)
    | none => false) && decide (r.cycle < cMin)))
  kept.filter (fun r => kept.any (fun q => decide (q.cycle = r.cycle) && decide (q.step = r.step) &&
    decide (q.counter = r.counter) && q.time.isSome))

/-- rows of a cycle and step (core.py:257-474) -/
def selectD (rows : List DRow) (c s : Int) : List DRow :=
  rows.filter (fun r => decide (r.cycle = c) && decide (r.step = s))

/-- the charge and discharge step of a diagnostic cycle, as found by `get_step_index`
(core.py:257-474, get_step_index of featurizer_helpers.py:548-627) -/
structure Roles where
  charge : Int
  discharge : Int

/-- `DiagnosticSummaryStats.create_features` from the filtered data (`prepare`) on, core.py:368-474.  The
steps are those `get_step_index` returns (`roles`, modelled in `StepRoles`). -/
def diagnosticSummaryStats (stats : List String) (type : String) (p0 p1 : Nat) (roles : Nat → Roles)
    (rows : List DRow) (s : List SRow) : Except Err (Dict String Val) :=
  let cycles := unique ((rows.filter (fun r => r.cycleType = type)).map DRow.cycle)
  match cycles[p0]?, cycles[p1]? with
  | some c0, some c1 =>
    let chg := fun (col : DRow → Option Rat) =>
      ((selectD rows c1 (roles p1).charge).map col, (selectD rows c0 (roles p0).charge).map col)
    let dchg := fun (col : DRow → Option Rat) =>
      ((selectD rows c1 (roles p1).discharge).map col, (selectD rows c0 (roles p0).discharge).map col)
    match blocks stats [chg DRow.chgCap, dchg DRow.dchgCap, chg DRow.chgEn, dchg DRow.dchgEn,
        chg DRow.chgDqdv, dchg DRow.dchgDqdv] with
    | .error e => .error e
    | .ok vs => match summaryDiff s p0 p1 with
      | .error e => .error e
      | .ok ds => named (names ["charging_capacity", "discharging_capacity", "charging_energy", "discharging_energy",
          "charging_dQdV", "discharging_dQdV"] stats ++ ds.map Prod.fst) (vs ++ ds.map Prod.snd)
  | _, _ => .error .indexError

/-- `DiagnosticSummaryStats.validate`, core.py:279-304: enough summary rows of the type (cycle
indices are distinct in a summary) -/
def validDiagnostic (type : String) (p0 p1 : Nat) (s : List SRow) : Bool :=
  !s.isEmpty && decide ((s.filter (fun r => r.cycleType = type)).length ≥ max p0 p1 + 1)

/-! ### DeltaQFastCharge -/

/-- a row of the summary: index label, cycle index and the columns used (core.py:477-659) -/
structure QRow where
  label : Int
  cycle : Int
  dchg : Rat
  integral : Option Rat
  duration : Option Rat
  tMax : Option Rat
  tMin : Option Rat
  ir : Option Rat
  deriving DecidableEq, Repr

/-- hyperparameters, core.py:487-492 -/
structure QArgs where
  init : Int := 10
  mid : Nat := 91
  final : Nat := 100
  nNominal : Nat := 40
  deriving DecidableEq, Repr

/-- `DeltaQFastCharge.validate`, core.py:494-521; an empty summary has no largest label -/
def validDeltaQ (a : QArgs) (s : List QRow) : Bool :=
  match maxN (s.map (fun r => some (r.label : Rat))), minN (s.map (fun r => some (r.label : Rat))) with
  | some hi, some lo => decide (hi > a.final) && decide (lo ≤ a.init) && decide (a.mid > 10) && decide (a.final > a.mid)
  | _, _ => false

/-- `iloc[list(range(i, j))]`: out of bounds raises (core.py:615-627) -/
def ilocRange (s : List QRow) (i j : Nat) : Except Err (List QRow) :=
  if j ≤ i ∨ j ≤ s.length then .ok ((s.take j).drop i) else .error .indexError

/-- slope and intercept of `np.polyfit(xs, ys, 1)`, in exact arithmetic, for points that are not
all at the same place (core.py:615-627) -/
def polyfit (pts : List (Rat × Rat)) : Rat × Rat :=
  let n : Rat := pts.length
  let sx := (pts.map Prod.fst).sum
  let sy := (pts.map Prod.snd).sum
  let sxx := (pts.map (fun p => p.1 * p.1)).sum
  let sxy := (pts.map (fun p => p.1 * p.2)).sum
  let m := (n * sxy - sx * sy) / (n * sxx - sx * sx)
  (m, (sy - m * sx) / n)

/-- the points of `polyfit(range(i, j), discharge_capacity.iloc[range(i, j)])` (core.py:615-627) -/
def points (i : Nat) (rows : List QRow) : List (Rat × Rat) :=
  rows.zipIdx.map (fun p => (((i + p.2 : Nat) : Rat), p.1.dchg))

/-- the features of the difference of two discharge curves, core.py:578-596; a curve is the
discharge capacity of the rows of that cycle.  For an empty difference `X[5:11] = np.nan` addresses
rows, not columns, so that the zeros of `np.zeros((1, 20))` stay. -/
def curveFeatures (d : List (Option Rat)) : List Val :=
  match d with
  | [] => List.replicate 6 (.num (some 0))
  | x :: _ => [.log "nanmin" d, .log "nanmean" d, .log "nanvar" d, .log "skew" d, .log "fisher_kurtosis" d, .log "first" [x]]

/-- labels, core.py:555-656 -/
def deltaLabels : List String :=
  ["discharge_capacity_cycle_2", "max_discharge_capacity_difference", "discharge_capacity_cycle_100",
   "integrated_time_temperature_cycles_1:100", "charge_time_cycles_1:5",
   "abs_min_discharge_capacity_difference_cycles_2:100", "abs_mean_discharge_capacity_difference_cycles_2:100",
   "abs_variance_discharge_capacity_difference_cycles_2:100", "abs_skew_discharge_capacity_difference_cycles_2:100",
   "abs_kurtosis_discharge_capacity_difference_cycles_2:100", "abs_first_discharge_capacity_difference_cycles_2:100",
   "max_temperature_cycles_1:100", "min_temperature_cycles_1:100",
   "slope_discharge_capacity_cycle_number_2:100", "intercept_discharge_capacity_cycle_number_2:100",
   "slope_discharge_capacity_cycle_number_91:100", "intercept_discharge_capacity_cycle_number_91:100",
   "min_internal_resistance_cycles_2:100", "internal_resistance_cycle_2",
   "internal_resistance_difference_cycles_2:100", "nominal_capacity_by_median"]

/-- `DeltaQFastCharge.create_features`, core.py:523-659, for `1 ≤ mid`, `2 ≤ final`; every summary
row has a discharge capacity and the summary has its temperature columns.  `curve c` is the
discharge capacity column of the interpolated discharge rows of cycle `c`.  The number of nominal
cycles is overwritten with 40 (541-543). -/
def deltaQ (a : QArgs) (s : List QRow) (curve : Int → List (Option Rat)) : Except Err (Dict String Val) :=
  let iFinal := a.final - 1
  let iMid := a.mid - 1
  match s[1]?, s[iFinal]?, ilocRange s 0 (iFinal + 1), ilocRange s 1 (iFinal + 1), ilocRange s iMid (iFinal + 1) with
  | some r1, some rF, .ok upTo, .ok from1, .ok fromMid =>
    match minusArr (curve iFinal) (curve 9) with
    | .error e => .error e
    | .ok d =>
      let fit := polyfit (points 1 from1)
      let fitMid := polyfit (points iMid fromMid)
      named deltaLabels
        ([.num (some r1.dchg), .num (maxN (upTo.map (fun r => some (r.dchg - r1.dchg)))), .num (some rF.dchg),
          .num (some (sumN (upTo.map QRow.integral))), .num (meanN (((s.take 6).drop 1).map QRow.duration))] ++
         curveFeatures d ++
         [.num (maxN (from1.map QRow.tMax)), .num (minN (from1.map QRow.tMin)),
          .num (some fit.1), .num (some fit.2), .num (some fitMid.1), .num (some fitMid.2),
          .num (minN (from1.map (fun r => if r.ir = some 0 then none else r.ir))), .num r1.ir,
          .num (subN rF.ir r1.ir), .num (medianN ((s.take 40).map (fun r => some r.dchg)))])
  | _, _, _, _, _ => .error .indexError

end Beep.CoreFeatures
