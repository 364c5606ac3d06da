import Verif.Model.Pandas
/-
Model of the per-cycle summary, cycle life and capacity tables, beep/structure/base.py.
-/
namespace Beep.Summary
open Beep.Pandas

/-- the columns of the raw data used for the summary; NaN is `none`.  `stamp` is
`date_time_iso` in seconds (every row has one: simplification) (base.py:752-901). -/
structure Raw where
  cycle : Int
  chgCap : Option Rat
  dchgCap : Option Rat
  chgEn : Option Rat
  dchgEn : Option Rat
  stamp : Rat
  voltage : Option Rat
  deriving DecidableEq, Repr

/-- a row of the summary: `label` is the index of the data frame, the other fields are
columns.  Internal resistance, temperature, pause and CV columns are not modelled here
(base.py:752-901). -/
structure Row where
  label : Int
  cycle : Int
  dchgCap : Option Rat
  chgCap : Option Rat
  dchgEn : Option Rat
  chgEn : Option Rat
  efficiency : Option Rat
  chgThroughput : Option Rat
  enThroughput : Option Rat
  duration : Option Rat
  deriving DecidableEq, Repr

/-- `self.raw_data.groupby("cycle_index")`: rows of one cycle (base.py:752-901) -/
def cycleRows (raw : List Raw) (c : Int) : List Raw := raw.filter (fun r => r.cycle = c)

/-- all cycles in the order of `groupby` (base.py:752-901) -/
def cycles (raw : List Raw) : List Int := groupKeys (raw.map Raw.cycle)

/-- base.py:793-798: `discharge / charge`, non-finite results are NaN -/
def efficiency : Option Rat → Option Rat → Option Rat
  | some d, some c => if c = 0 then none else some (d / c)
  | _, _ => none

/-- base.py:800-801: a value whose magnitude exceeds `error_threshold` becomes NaN -/
def errorFilter (thr : Rat) : Option Rat → Option Rat
  | some v => if absR v > thr then none else some v
  | none => none

/-- parameters of `summarize_cycles`, base.py:752-760 -/
structure Params where
  nominal : Rat := 11 / 10
  fullFast : Rat := 8 / 10
  ratio : Rat := 97 / 100
  vmin : Rat := 33 / 10
  vmax : Rat := 33 / 10
  errorThreshold : Rat := 1000000
  deriving DecidableEq, Repr

/-- base.py:807-830: duration of the charge of the cycle at position `i` of the sorted
list of all cycles.  `merged` has one row per cycle, indexed 0, 1, 2, … -/
def durationAt (p : Params) (raw : List Raw) (i : Nat) : Option Rat :=
  match (cycles raw)[i]? with
  | none => none
  | some c =>
    match (cycleRows raw c).head?,
      (cycleRows raw c).find? (fun r => match r.chgCap with
        | some q => decide (q ≥ p.nominal * p.fullFast)
        | none => false) with
    | some a, some b => some (round2 (b.stamp - a.stamp))
    | _, _ => none

/-- base.py:830: `summary["charge_duration"] = <series indexed 0, 1, …>` aligns the index
labels: the row labelled `c` receives the entry at position `c` -/
def durationFor (p : Params) (raw : List Raw) (label : Int) : Option Rat :=
  if 0 ≤ label then durationAt p raw label.toNat else none

/-- base.py:782-787: regular cycles -/
def regCycles (diag : Option (List Int)) (raw : List Raw) : List Int :=
  match diag with
  | some ix => unique ((raw.filter (fun r => !ix.contains r.cycle)).map Raw.cycle)
  | none => unique (raw.map Raw.cycle)

/-- aggregated values of one cycle, base.py:788-801 -/
def aggregate (p : Params) (raw : List Raw) (c : Int) : Row :=
  let rows := cycleRows raw c
  let de := maxN (rows.map Raw.dchgEn)
  let ce := maxN (rows.map Raw.chgEn)
  Row.mk c c (maxN (rows.map Raw.dchgCap)) (maxN (rows.map Raw.chgCap))
    (errorFilter p.errorThreshold de) (errorFilter p.errorThreshold ce) (efficiency de ce) none none none

/-- running sum after one more entry (`cumsum` skips NaN) (base.py:752-901) -/
def addN (acc : Rat) : Option Rat → Rat
  | some v => acc + v
  | none => acc

/-- attach the running sums, base.py:802-803 -/
def withThroughput (accC accE : Rat) : List Row → List Row
  | [] => []
  | r :: rs =>
    let c := addN accC r.chgCap
    let e := addN accE r.chgEn
    { r with
      chgThroughput := r.chgCap.map (fun _ => c)
      enThroughput := r.chgEn.map (fun _ => e) } :: withThroughput c e rs

/-- the summary before the last-cycle rule, base.py:782-880 -/
def table (p : Params) (diag : Option (List Int)) (raw : List Raw) : List Row :=
  let kept := (cycles raw).filter (fun c => (regCycles diag raw).contains c)
  (withThroughput 0 0 (kept.map (aggregate p raw))).map
    (fun r => { r with duration := durationFor p raw r.label })

/-- `a < b` with NaN comparing false (base.py:752-901) -/
def ltN : Option Rat → Rat → Bool
  | some a, b => decide (a < b)
  | none, _ => false

/-- `a > b` with NaN comparing false (base.py:752-901) -/
def gtN : Option Rat → Rat → Bool
  | some a, b => decide (a > b)
  | none, _ => false

/-- base.py:886-888: the voltages of the last cycle of the raw data -/
def lastVolts (raw : List Raw) : List (Option Rat) :=
  match (cycles raw).getLast? with
  | some c => (cycleRows raw c).map Raw.voltage
  | none => []

/-- base.py:889-898: the completeness rule -/
def lastComplete (p : Params) (raw : List Raw) (last : Row) : Bool :=
  ltN (minN (lastVolts raw)) p.vmin && gtN (maxN (lastVolts raw)) p.vmax &&
    (match last.dchgCap, last.chgCap with
      | some d, some c => decide (d > p.ratio * c)
      | _, _ => false)

/-- `summarize_cycles`, base.py:752-901.  A table without regular cycles: `iloc[[-1]]`
raises when the voltage conditions hold, otherwise the empty table is returned. -/
def summarize (p : Params) (diag : Option (List Int)) (raw : List Raw) : Except Err (List Row) :=
  let s := table p diag raw
  if s.length = 1 then .ok s
  else match s.getLast? with
    | none =>
      if ltN (minN (lastVolts raw)) p.vmin && gtN (maxN (lastVolts raw)) p.vmax then .error .indexError
      else .ok []
    | some last => if lastComplete p raw last then .ok s else .ok s.dropLast

/-! ### cycle life -/

/-- median of a list of numbers; NaN (`none`) for an empty list (base.py:1147) -/
def median (l : List Rat) : Option Rat :=
  let s := sortBy (fun a b => decide (a ≤ b)) l
  let n := s.length
  if n = 0 then none
  else if n % 2 = 1 then s[n / 2]?
  else match s[n / 2 - 1]?, s[n / 2]? with
    | some a, some b => some ((a + b) / 2)
    | _, _ => none

/-- `x / m <= t` in floating point: division by zero gives an infinity or NaN (base.py:1129-1221) -/
def ratioLe (x m t : Rat) : Bool := if m = 0 then decide (x < 0) else decide (x / m ≤ t)

/-- a summary as seen by the cycle-life methods: index label and discharge capacity
(base.py:1129-1221) -/
abbrev Caps := List (Int × Rat)

/-- base.py:1147-1152 -/
def maxCapacity (s : Caps) (cutoff : Nat) : Option Rat :=
  if s.length > cutoff then median ((s.take cutoff).map Prod.snd) else some (11 / 10)

/-- `get_cycle_life`, base.py:1129-1162.  Missing discharge capacities are not modelled. -/
def getCycleLife (s : Caps) (cutoff : Nat) (thr : Rat) : Except Err Int :=
  match s.getLast? with
  | none => .error .indexError
  | some last =>
    match maxCapacity s cutoff with
    | none => .ok (s.length + 1)
    | some m =>
      if ratioLe last.2 m thr then
        match s.find? (fun r => decide (r.2 < thr * m)) with
        | some r => .ok r.1
        | none => .error .indexError
      else .ok (s.length + 1)

/-- the index labels of the summary after `as_dict`/`from_dict` (base.py:374, 443): the
columns are saved without the index, so a reloaded summary is numbered 0, 1, 2, … -/
def reload (s : Caps) : Caps := (s.zipIdx).map (fun p => ((p.2 : Int), p.1.2))

/-- `np.arange(start, stop, -step)` for `step > 0`, with exact arithmetic (base.py:1129-1221) -/
def arangeDown (start stop step : Rat) : List Rat :=
  (List.range ((start - stop) / step).ceil.toNat).map (fun i : Nat => start - (i : Rat) * step)

/-- apply a function that may raise to every element (the comprehensions of base.py:1129-1221) -/
def mapE {α β : Type} (f : α → Except Err β) : List α → Except Err (List β)
  | [] => .ok []
  | a :: as => match f a with
    | .error e => .error e
    | .ok b => match mapE f as with
      | .error e => .error e
      | .ok bs => .ok (b :: bs)

/-- `capacities_to_cycles`, base.py:1196-1221: one column per rounded threshold -/
def capacitiesToCycles (s : Caps) (maxCap minCap interval : Rat) : Except Err (List (Rat × Int)) :=
  mapE (fun t => match getCycleLife s 40 t with
    | .error e => .error e
    | .ok c => .ok (t, c)) ((arangeDown maxCap minCap interval).map round2)

/-- `np.arange(min, max, interval)` for naturals and `interval ≥ 1` (base.py:1129-1221) -/
def arangeNat (min max interval : Nat) : List Nat :=
  (List.range ((max - min + interval - 1) / interval)).map (fun i => min + i * interval)

/-- `cycles_to_capacities`, base.py:1165-1193, for `0 ≤ min ≤ max`, `interval ≥ 1`.
The frame starts with `int((max-min)/interval)` zero columns; a cycle beyond the end of
the summary leaves its column as it is; the renaming at the end raises `ValueError` when
the number of columns is not the number of requested cycles. -/
def cyclesToCapacities (s : Caps) (min max interval : Nat) : Except Err (List (Nat × Rat)) :=
  let idx := arangeNat min max interval
  let k := (max - min) / interval
  let col : Nat → Nat → Option Rat := fun i c => match s[c]? with
    | some r => some r.2
    | none => if i < k then some 0 else none
  let cols := (idx.zipIdx).filterMap (fun p => (col p.2 p.1).map (fun v => (p.1, v)))
  if cols.length = idx.length then .ok cols else .error .valueError

end Beep.Summary
