import Verif.Model.Summary
import Verif.Model.Segments
import Verif.Model.Diagnostic
/-
Model of the remaining columns of the cycle summary and of the diagnostic summary,
beep/structure/base.py.
-/
namespace Beep.SummaryFull
open Beep.Pandas

/-- the columns of the raw data used by the summaries.  Test time, voltage, current, charge
capacity and time stamp (in seconds) are present in every row (simplification) (base.py:752-901). -/
structure Raw where
  cycle : Int
  step : Option Int
  time : Rat
  volt : Rat
  curr : Rat
  cap : Rat
  dchgCap : Option Rat
  chgEn : Option Rat
  dchgEn : Option Rat
  ir : Option Rat
  temp : Option Rat
  stamp : Rat
  deriving DecidableEq, Repr

/-- the columns of `Summary.Raw` (base.py:752-901) -/
def toRaw (r : Raw) : Summary.Raw := ⟨r.cycle, some r.cap, r.dchgCap, r.chgEn, r.dchgEn, r.stamp, some r.volt⟩

/-- the columns of `Segments.Row` (base.py:752-901) -/
def toSeg (r : Raw) : Segments.Row := ⟨r.time, r.volt, r.curr, r.cap⟩

/-- a column of the raw data by name, as numbers (base.py:752-901) -/
def col (name : String) (r : Raw) : Option Rat :=
  if name = "cycle_index" then some r.cycle
  else if name = "discharge_capacity" then r.dchgCap
  else if name = "charge_capacity" then some r.cap
  else if name = "discharge_energy" then r.dchgEn
  else if name = "charge_energy" then r.chgEn
  else if name = "internal_resistance" then r.ir
  else if name = "temperature" then r.temp
  else if name = "date_time_iso" then some r.stamp
  else none

/-- `first`/`last` of `agg`: the first/last value that is not NaN (base.py:235-240, 270) -/
def firstN (l : List (Option Rat)) : Option Rat := (l.filterMap id).head?
/-- `last` of `agg`, base.py:240 -/
def lastN (l : List (Option Rat)) : Option Rat := (l.filterMap id).getLast?

/-- the aggregations used, by name; another name, which would raise, gives no value here
(base.py:234-274) -/
def aggregate (f : String) (l : List (Option Rat)) : Option Rat :=
  if f = "first" then firstN l
  else if f = "last" then lastN l
  else if f = "max" then maxN l
  else if f = "min" then minN l
  else if f = "mean" then meanN l
  else none

/-- `self._aggregation`, base.py:234-244, 268 -/
def aggregation (hasTemp : Bool) : Dict String (List String) :=
  [("cycle_index", ["first"]), ("discharge_capacity", ["max"]), ("charge_capacity", ["max"]),
   ("discharge_energy", ["max"]), ("charge_energy", ["max"]), ("internal_resistance", ["last"])] ++
  (if hasTemp then [("temperature", ["max", "mean", "min"])] else []) ++
  [("date_time_iso", ["first"])]

/-- `self._summary_cols`, base.py:246-267 -/
def summaryCols (hasTemp : Bool) : List String :=
  ["cycle_index", "discharge_capacity", "charge_capacity", "discharge_energy", "charge_energy",
   "dc_internal_resistance"] ++
  (if hasTemp then ["temperature_maximum", "temperature_average", "temperature_minimum"] else []) ++
  ["date_time_iso"]

/-- `self._diag_aggregation`, base.py:270-271 -/
def diagAggregation (hasTemp : Bool) : Dict String (List String) :=
  (aggregation hasTemp).erase "internal_resistance"

/-- `self._diag_summary_cols`, base.py:272-273 -/
def diagSummaryCols (hasTemp : Bool) : List String := (summaryCols hasTemp).eraseIdx 5

/-- the aggregated values of a group in the order of the aggregation, renamed by position,
base.py:788-789, 1051-1053 -/
def aggRow (agg : Dict String (List String)) (names : List String) (rows : List Raw) :
    Dict String (Option Rat) :=
  names.zip (agg.flatMap (fun p => p.2.map (fun f => aggregate f (rows.map (col p.1)))))

/-- rows of one cycle (base.py:752-901) -/
def cycleRows (raw : List Raw) (c : Int) : List Raw := raw.filter (fun r => r.cycle = c)

/-- minutes since the first row of the cycle, base.py:834-844 -/
def minutes (rows : List Raw) (r : Raw) : Rat :=
  match rows.head? with
  | some a => (r.stamp - a.stamp) / 60
  | none => 0

/-- `integrate.trapz(y, x)`; NaN if a value is missing (base.py:850) -/
def trapz : List (Rat × Option Rat) → Option Rat
  | [] => some 0
  | [_] => some 0
  | p :: q :: rest =>
    match p.2, q.2, trapz (q :: rest) with
    | some a, some b, some s => some ((q.1 - p.1) * (a + b) / 2 + s)
    | _, _, _ => none

/-- base.py:848-851 -/
def timeTemperature (rows : List Raw) : Option Rat := trapz (rows.map (fun r => (minutes rows r, r.temp)))

/-- base.py:857-858, 1060-1062: default threshold of one hour.  Stamps are whole seconds with a
time zone here (simplification; `Segments.maxPausedOn` has fractions and the machine's clock). -/
def paused (rows : List Raw) : Rat := Segments.maxPaused (rows.map (fun r => some r.stamp)) 3600

/-- the three columns of a CV segment; empty segments give NaN (or `None`), base.py:868-880,
1079-1088 -/
def cvCols (rows : List Raw) : Dict String (Option Rat) :=
  let cv := Segments.cvSegment {} (rows.map toSeg)
  [("CV_time", Segments.cvTime cv), ("CV_current", Segments.cvCurrent cv), ("CV_capacity", Segments.cvCapacity cv)]

/-- the columns of `summarize_cycles` that are not in `Summary.Row`, for the row labelled
`label`: values aligned by label (base.py:752-901) -/
def byLabel (hasTemp : Bool) (raw : List Raw) (label : Int) : Dict String (Option Rat) :=
  aggRow (aggregation hasTemp) (summaryCols hasTemp) (cycleRows raw label) ++
    (if hasTemp then [("time_temperature_integrated", timeTemperature (cycleRows raw label))] else []) ++
    [("paused", some (paused (cycleRows raw label)))]

/-- `summarize_cycles`, base.py:752-901, with all columns.  The rule for the last cycle and the
columns of `Summary.Row` are those of `Summary.summarize`; here the CV columns are lists over
`summary.cycle_index` (864-880) assigned by position.  They are attached after the rule for the
last cycle, which commutes with it. -/
def summarize (p : Summary.Params) (diag : Option (List Int)) (hasTemp : Bool) (raw : List Raw) :
    Except Err (List (Summary.Row × Dict String (Option Rat))) :=
  match Summary.summarize p diag (raw.map toRaw) with
  | .error e => .error e
  | .ok s =>
    let cvs := s.map (fun r => cvCols ((cycleRows raw r.cycle).filter (fun x => decide (x.curr > 0))))
    .ok (List.zipWith (fun r cv => (r, byLabel hasTemp raw r.label ++ cv)) s cvs)

/-! ### diagnostic summary -/

/-- a row of the diagnostic summary (base.py:1042-1092) -/
structure DiagRow where
  cycle : Int
  cycleType : String
  cols : Dict String (Option Rat)
  deriving DecidableEq, Repr

/-- base.py:1057-1059; an infinite quotient is `none` -/
def ratio : Option Rat → Option Rat → Option Rat
  | some d, some c => if c = 0 then none else some (d / c)
  | _, _ => none

/-- smallest step index, NaN skipped (base.py:1078) -/
def minStep (rows : List Raw) : Option Int :=
  match minN (rows.map (fun r => r.step.map (fun s : Int => (s : Rat)))) with
  | some m => some m.num
  | none => none

/-- base.py:1077-1078: rows of the lowest step; equality with NaN is false -/
def chargeRows (rows : List Raw) : List Raw :=
  match minStep rows with
  | some s => rows.filter (fun r => decide (r.step = some s))
  | none => []

/-- the columns of one diagnostic cycle (base.py:1042-1092) -/
def diagCols (hasTemp : Bool) (raw : List Raw) (c : Int) : Dict String (Option Rat) :=
  let a := aggRow (diagAggregation hasTemp) (diagSummaryCols hasTemp) (cycleRows raw c)
  a ++ [("coulombic_efficiency", ratio ((a.get? "discharge_capacity").getD none) ((a.get? "charge_capacity").getD none)),
    ("paused", some (paused (cycleRows raw c)))] ++ cvCols (chargeRows (cycleRows raw c))

/-- `summarize_diagnostic`, base.py:1042-1092.  Without a configuration `self.diagnostic.all_ix`
raises `AttributeError`. -/
def summarizeDiagnostic (diag : Option Diagnostic.Config) (hasTemp : Bool) (raw : List Raw) :
    Except Err (List DiagRow) :=
  match diag with
  | none => .error .attributeError
  | some cfg =>
    let cs := (groupKeys (raw.map Raw.cycle)).filter (fun c => cfg.allIx.contains c)
    Summary.mapE (fun c => match cfg.typeByIx.get? c with
      | none => .error .keyError
      | some t => .ok (DiagRow.mk c t (diagCols hasTemp raw c))) cs

/-! ### the effect on the raw data -/

/-- the raw data as a table (base.py:752-901, 1042-1092) -/
abbrev Cols := Dict String (List (Option Rat))

/-- the effect of `summarize_cycles` on `self.raw_data`, base.py:834-854: a column with the
minutes since the start of the cycle is added, and the result of `drop` is discarded -/
def rawAfter (raw : List Raw) (cols : Cols) : Cols :=
  cols.set "time_since_cycle_start" (raw.map (fun r => some (minutes (cycleRows raw r.cycle) r)))

end Beep.SummaryFull
