import Verif.Spec.Metamorphic
import Verif.Proof.Pca
import Verif.Proof.Summary
/-
C164: the summaries of a run do not depend on the clocks, on the first cycle number and on the units of the record.
-/
namespace Beep.Props.Metamorphic
open Beep Beep.Pandas Beep.SummaryFull Beep.Spec.Metamorphic

/-! ### columns -/

theorem maxN_map {f : Rat → Rat} (hf : ∀ a b, f a < f b ↔ a < b) : ∀ l : List (Option Rat), maxN (l.map (Option.map f)) = (maxN l).map f
  | [] => rfl
  | none :: vs => maxN_map hf vs
  | some v :: vs => by
    simp only [List.map_cons, Option.map_some, maxN, maxN_map hf vs]
    cases maxN vs with
    | none => rfl
    | some w =>
      simp only [Option.map_some, hf]
      split <;> rfl

theorem minN_map {f : Rat → Rat} (hf : ∀ a b, f a < f b ↔ a < b) : ∀ l : List (Option Rat), minN (l.map (Option.map f)) = (minN l).map f
  | [] => rfl
  | none :: vs => minN_map hf vs
  | some v :: vs => by
    simp only [List.map_cons, Option.map_some, minN, minN_map hf vs]
    cases minN vs with
    | none => rfl
    | some w =>
      simp only [Option.map_some, hf]
      split <;> rfl

theorem filterMap_map (f : Rat → Rat) (l : List (Option Rat)) :
    (l.map (Option.map f)).filterMap id = (l.filterMap id).map f := by
  induction l with
  | nil => rfl
  | cons a l ih =>
    cases a with
    | none => exact ih
    | some x =>
      show f x :: _ = f x :: _
      exact congrArg _ ih

theorem firstN_map (f : Rat → Rat) (l : List (Option Rat)) : firstN (l.map (Option.map f)) = (firstN l).map f := by
  unfold firstN
  rw [filterMap_map, List.head?_map]

theorem lastN_map (f : Rat → Rat) (l : List (Option Rat)) : lastN (l.map (Option.map f)) = (lastN l).map f := by
  unfold lastN
  rw [filterMap_map, List.getLast?_map]

theorem mul_lt {k : Rat} (hk : 0 < k) (a b : Rat) : k * a < k * b ↔ a < b := mul_lt_mul_iff_right₀ hk

theorem add_lt (d a b : Rat) : a + d < b + d ↔ a < b := by constructor <;> intro h <;> linarith

/-! ### groups -/

theorem unique_map (n : Int) (l : List Int) : unique (l.map (· + n)) = (unique l).map (· + n) := by
  induction l with
  | nil => rfl
  | cons a l ih =>
    simp only [List.map_cons, unique, ih, List.filter_map, List.cons.injEq, true_and]
    congr 1
    apply List.filter_congr
    intro x _
    simp

theorem groupKeys_map (n : Int) (l : List Int) : groupKeys (l.map (· + n)) = (groupKeys l).map (· + n) := by
  unfold groupKeys
  rw [unique_map]
  exact Proof.Pca.sortBy_map (fun a b => by simp) _

theorem cycleRows_map (g : Change) (raw : List Raw) (c : Int) :
    SummaryFull.cycleRows (raw.map g.raw) (c + g.number) = (SummaryFull.cycleRows raw c).map g.raw := by
  unfold SummaryFull.cycleRows
  rw [List.filter_map]
  congr 1
  apply List.filter_congr
  intro x _
  simp [Change.raw]

theorem col_map (g : Change) (nm : String) (r : Raw) : col nm (g.raw r) = (col nm r).map (g.value nm) := by
  unfold col Change.value
  by_cases h1 : nm = "cycle_index"
  · subst h1; simp [Change.raw]
  by_cases h2 : nm = "discharge_capacity"
  · subst h2; simp [Change.raw]
  by_cases h3 : nm = "charge_capacity"
  · subst h3; simp [Change.raw]
  by_cases h4 : nm = "discharge_energy"
  · subst h4; simp [Change.raw]
  by_cases h5 : nm = "charge_energy"
  · subst h5; simp [Change.raw]
  by_cases h6 : nm = "internal_resistance"
  · subst h6; simp [Change.raw]
  by_cases h7 : nm = "temperature"
  · subst h7; simp [Change.raw]
  by_cases h8 : nm = "date_time_iso"
  · subst h8; simp [Change.raw]
  simp [h1, h2, h3, h4, h5, h6, h7, h8]

/-- the units are positive -/
def Pos (g : Change) : Prop := 0 < g.capacity ∧ 0 < g.energy

theorem value_lt {g : Change} (hg : Pos g) (nm : String) (a b : Rat) : g.value nm a < g.value nm b ↔ a < b := by
  unfold Change.value
  split
  · exact add_lt _ _ _
  split
  · exact mul_lt hg.1 _ _
  split
  · exact mul_lt hg.2 _ _
  split
  · exact add_lt _ _ _
  · rfl

theorem cols_map (g : Change) (nm : String) (rows : List Raw) :
    (rows.map g.raw).map (col nm) = (rows.map (col nm)).map (Option.map (g.value nm)) := by
  simp only [List.map_map]
  apply List.map_congr_left
  intro r _
  exact col_map g nm r

theorem agg_first {g : Change} (nm : String) (rows : List Raw) :
    SummaryFull.aggregate "first" ((rows.map g.raw).map (col nm)) = (SummaryFull.aggregate "first" (rows.map (col nm))).map (g.value nm) := by
  rw [cols_map]; exact firstN_map _ _

theorem agg_last {g : Change} (nm : String) (rows : List Raw) :
    SummaryFull.aggregate "last" ((rows.map g.raw).map (col nm)) = (SummaryFull.aggregate "last" (rows.map (col nm))).map (g.value nm) := by
  rw [cols_map]; exact lastN_map _ _

theorem agg_max {g : Change} (hg : Pos g) (nm : String) (rows : List Raw) :
    SummaryFull.aggregate "max" ((rows.map g.raw).map (col nm)) = (SummaryFull.aggregate "max" (rows.map (col nm))).map (g.value nm) := by
  rw [cols_map]; exact maxN_map (value_lt hg nm) _

theorem temp_map (g : Change) (rows : List Raw) : (rows.map g.raw).map (col "temperature") = rows.map (col "temperature") := by
  simp only [List.map_map]
  apply List.map_congr_left
  intro r _
  rfl

theorem same {g : Change} {nm : String} (h : ∀ x, g.value nm x = x) (o : Option Rat) : o.map (g.value nm) = o := by
  cases o with
  | none => rfl
  | some x => rw [Option.map_some, h]

theorem aggRow_map {g : Change} (hg : Pos g) (t : Bool) (rows : List Raw) :
    aggRow (aggregation t) (summaryCols t) (rows.map g.raw) = g.cols (aggRow (aggregation t) (summaryCols t) rows) := by
  have h1 : ∀ o : Option Rat, o.map (g.value "internal_resistance") = o := same fun _ => rfl
  have h2 : ∀ o : Option Rat, o.map (g.value "dc_internal_resistance") = o := same fun _ => rfl
  have h3 : ∀ o : Option Rat, o.map (g.value "temperature_maximum") = o := same fun _ => rfl
  have h4 : ∀ o : Option Rat, o.map (g.value "temperature_average") = o := same fun _ => rfl
  have h5 : ∀ o : Option Rat, o.map (g.value "temperature_minimum") = o := same fun _ => rfl
  cases t <;>
    simp only [aggRow, aggregation, summaryCols, List.flatMap_cons, List.flatMap_nil, List.map_cons, List.map_nil,
      List.append_nil, List.cons_append, List.nil_append, List.zip_cons_cons, List.zip_nil_right, Change.cols, agg_first,
      agg_last, agg_max hg, temp_map, if_true, if_false, Bool.false_eq_true, h1, h2, h3, h4, h5]

theorem diagAggregation_eq (t : Bool) : diagAggregation t =
    [("cycle_index", ["first"]), ("discharge_capacity", ["max"]), ("charge_capacity", ["max"]),
     ("discharge_energy", ["max"]), ("charge_energy", ["max"])] ++
    (if t then [("temperature", ["max", "mean", "min"])] else []) ++ [("date_time_iso", ["first"])] := by
  cases t <;> decide +kernel

theorem diagSummaryCols_eq (t : Bool) : diagSummaryCols t =
    ["cycle_index", "discharge_capacity", "charge_capacity", "discharge_energy", "charge_energy"] ++
    (if t then ["temperature_maximum", "temperature_average", "temperature_minimum"] else []) ++ ["date_time_iso"] := by
  cases t <;> rfl

theorem diagAggRow_map {g : Change} (hg : Pos g) (t : Bool) (rows : List Raw) :
    aggRow (diagAggregation t) (diagSummaryCols t) (rows.map g.raw) = g.cols (aggRow (diagAggregation t) (diagSummaryCols t) rows) := by
  have h3 : ∀ o : Option Rat, o.map (g.value "temperature_maximum") = o := same fun _ => rfl
  have h4 : ∀ o : Option Rat, o.map (g.value "temperature_average") = o := same fun _ => rfl
  have h5 : ∀ o : Option Rat, o.map (g.value "temperature_minimum") = o := same fun _ => rfl
  rw [diagAggregation_eq, diagSummaryCols_eq]
  cases t <;>
    simp only [aggRow, List.flatMap_cons, List.flatMap_nil, List.map_cons, List.map_nil,
      List.append_nil, List.cons_append, List.nil_append, List.zip_cons_cons, List.zip_nil_right, Change.cols, agg_first,
      agg_max hg, temp_map, if_true, if_false, Bool.false_eq_true, h3, h4, h5]

/-! ### times -/

theorem minutes_map (g : Change) (rows : List Raw) (r : Raw) : minutes (rows.map g.raw) (g.raw r) = minutes rows r := by
  unfold minutes
  cases rows with
  | nil => rfl
  | cons a l => simp [Change.raw]

theorem timeTemperature_map (g : Change) (rows : List Raw) : timeTemperature (rows.map g.raw) = timeTemperature rows := by
  unfold timeTemperature
  rw [List.map_map]
  congr 1
  apply List.map_congr_left
  intro r _
  show (minutes (rows.map g.raw) (g.raw r), r.temp) = _
  rw [minutes_map]

theorem diffFrom_map (d : Rat) (prev : Rat) (l : List Rat) :
    diffFrom (some (prev + d)) (l.map fun x => some (x + d)) = diffFrom (some prev) (l.map some) := by
  induction l generalizing prev with
  | nil => rfl
  | cons a l ih =>
    simp only [List.map_cons, diffFrom, ih, subN, List.cons.injEq, Option.some.injEq, and_true]
    ring

theorem paused_map (g : Change) (rows : List Raw) : paused (rows.map g.raw) = paused rows := by
  unfold paused Segments.maxPaused
  have : diff ((rows.map g.raw).map fun r => some r.stamp) = diff (rows.map fun r => some r.stamp) := by
    cases rows with
    | nil => rfl
    | cons a l =>
      have := diffFrom_map g.stamp a.stamp (l.map Raw.stamp)
      simp only [List.map_map] at this
      simp only [List.map_cons, diff, List.map_map]
      exact congrArg _ this
  rw [this]

/-! ### the constant voltage part -/

/-- the columns of the charge table in the new units -/
def seg (g : Change) (r : Segments.Row) : Segments.Row := { r with time := r.time + g.time, cap := g.capacity * r.cap }

theorem toSeg_map (g : Change) (r : Raw) : toSeg (g.raw r) = seg g (toSeg r) := rfl

theorem isCV_map (g : Change) (tol : Segments.Tol) (a b : Segments.Row) :
    Segments.isCV tol (seg g a) (seg g b) = Segments.isCV tol a b := by
  unfold Segments.isCV seg
  simp only [show b.time + g.time - (a.time + g.time) = b.time - a.time by ring]

theorem firstCV_map (g : Change) (tol : Segments.Tol) : ∀ l : List Segments.Row,
    Segments.firstCV tol (l.map (seg g)) = Segments.firstCV tol l
  | [] => rfl
  | [_] => rfl
  | a :: b :: rest => by
    have := firstCV_map g tol (b :: rest)
    simp only [List.map_cons] at this
    simp only [List.map_cons, Segments.firstCV, isCV_map, this]

theorem startTime_map (g : Change) (l : List Segments.Row) (i : Nat) :
    Segments.startTime (l.map (seg g)) i = (Segments.startTime l i).map (· + g.time) := by
  cases i with
  | zero => simp only [Segments.startTime, List.getLast?_map, Option.map_map]; rfl
  | succ i => simp only [Segments.startTime, List.getElem?_map, Option.map_map]; rfl

theorem cvSegment_map (g : Change) (tol : Segments.Tol) (l : List Segments.Row) :
    Segments.cvSegment tol (l.map (seg g)) = (Segments.cvSegment tol l).map (seg g) := by
  unfold Segments.cvSegment
  rw [firstCV_map, startTime_map]
  cases Segments.startTime l (Segments.firstCV tol l) with
  | none => rfl
  | some t =>
    simp only [Option.map_some, List.filter_map]
    congr 1
    apply List.filter_congr
    intro x _
    simp [seg]

theorem cvCols_map (g : Change) (rows : List Raw) : cvCols (rows.map g.raw) = g.cols (cvCols rows) := by
  unfold cvCols
  have : (rows.map g.raw).map toSeg = (rows.map toSeg).map (seg g) := by simp only [List.map_map]; rfl
  simp only [this, cvSegment_map]
  generalize Segments.cvSegment {} (rows.map toSeg) = cv
  have e1 : Segments.cvTime (cv.map (seg g)) = Segments.cvTime cv := by
    unfold Segments.cvTime
    rw [List.head?_map, List.getLast?_map]
    cases cv.head? <;> cases cv.getLast? <;> simp [seg]
  have e2 : Segments.cvCurrent (cv.map (seg g)) = Segments.cvCurrent cv := by
    unfold Segments.cvCurrent
    rw [List.getLast?_map]
    cases cv.getLast? <;> simp [seg]
  have e3 : Segments.cvCapacity (cv.map (seg g)) = (Segments.cvCapacity cv).map (g.capacity * ·) := by
    unfold Segments.cvCapacity
    rw [List.head?_map, List.getLast?_map]
    cases cv.head? <;> cases cv.getLast? <;> simp [seg]
    ring
  rw [e1, e2, e3]
  have h1 : ∀ o : Option Rat, o.map (g.value "CV_time") = o := same fun _ => rfl
  have h2 : ∀ o : Option Rat, o.map (g.value "CV_current") = o := same fun _ => rfl
  simp only [Change.cols, List.map_cons, List.map_nil, h1, h2]
  rfl

theorem byLabel_map {g : Change} (hg : Pos g) (t : Bool) (raw : List Raw) (c : Int) :
    byLabel t (raw.map g.raw) (c + g.number) = g.cols (byLabel t raw c) := by
  unfold byLabel
  rw [cycleRows_map, aggRow_map hg, timeTemperature_map, paused_map]
  have h1 : ∀ o : Option Rat, o.map (g.value "time_temperature_integrated") = o := same fun _ => rfl
  have h2 : ∀ o : Option Rat, o.map (g.value "paused") = o := same fun _ => rfl
  cases t <;> simp only [Change.cols, List.map_append, List.map_cons, List.map_nil, h1, h2, if_true, if_false, Bool.false_eq_true]

/-! ### the columns of the first kind -/

/-- the same record, for the columns of `Summary.Raw` -/
def sraw (g : Change) (r : Summary.Raw) : Summary.Raw :=
  { r with
    cycle := r.cycle + g.number
    chgCap := r.chgCap.map (g.capacity * ·)
    dchgCap := r.dchgCap.map (g.capacity * ·)
    chgEn := r.chgEn.map (g.energy * ·)
    dchgEn := r.dchgEn.map (g.energy * ·)
    stamp := r.stamp + g.stamp }

theorem toRaw_map (g : Change) (r : Raw) : toRaw (g.raw r) = sraw g (toRaw r) := rfl

theorem scycleRows_map (g : Change) (raw : List Summary.Raw) (c : Int) :
    Summary.cycleRows (raw.map (sraw g)) (c + g.number) = (Summary.cycleRows raw c).map (sraw g) := by
  unfold Summary.cycleRows
  rw [List.filter_map]
  congr 1
  apply List.filter_congr
  intro x _
  simp [sraw]

theorem cycles_map (g : Change) (raw : List Summary.Raw) :
    Summary.cycles (raw.map (sraw g)) = (Summary.cycles raw).map (· + g.number) := by
  unfold Summary.cycles
  rw [← groupKeys_map, List.map_map, List.map_map]
  rfl

theorem regCycles_map (g : Change) (diag : Option (List Int)) (raw : List Summary.Raw) :
    Summary.regCycles (diag.map (List.map (· + g.number))) (raw.map (sraw g)) = (Summary.regCycles diag raw).map (· + g.number) := by
  cases diag with
  | none =>
    simp only [Option.map_none, Summary.regCycles]
    rw [← unique_map, List.map_map, List.map_map]
    rfl
  | some ix =>
    simp only [Option.map_some, Summary.regCycles]
    rw [← unique_map, List.filter_map, List.map_map, List.map_map]
    congr 1
    congr 1
    apply List.filter_congr
    intro x _
    simp [sraw]

theorem absR_mul {k : Rat} (hk : 0 < k) (x : Rat) : absR (k * x) = k * absR x := by
  unfold absR
  by_cases h : x < 0
  · rw [if_pos h, if_pos (mul_neg_of_pos_of_neg hk h)]; ring
  · rw [if_neg h, if_neg (by push Not at h ⊢; positivity)]

theorem errorFilter_map {k : Rat} (hk : 0 < k) (thr : Rat) (v : Option Rat) :
    Summary.errorFilter (k * thr) (v.map (k * ·)) = (Summary.errorFilter thr v).map (k * ·) := by
  cases v with
  | none => rfl
  | some x =>
    simp only [Option.map_some, Summary.errorFilter, absR_mul hk, gt_iff_lt, mul_lt hk]
    split <;> rfl

theorem efficiency_map {k : Rat} (hk : 0 < k) (d c : Option Rat) :
    Summary.efficiency (d.map (k * ·)) (c.map (k * ·)) = Summary.efficiency d c := by
  cases d with
  | none => rfl
  | some d =>
    cases c with
    | none => rfl
    | some c =>
      simp only [Option.map_some, Summary.efficiency]
      by_cases h : c = 0
      · simp [h]
      · rw [if_neg h, if_neg (mul_ne_zero hk.ne' h), mul_div_mul_left _ _ hk.ne']

theorem smax {k : Rat} (hk : 0 < k) (f f' : Summary.Raw → Option Rat) (h : Summary.Raw → Summary.Raw)
    (hf : ∀ r, f (h r) = (f' r).map (k * ·)) (rows : List Summary.Raw) :
    maxN ((rows.map h).map f) = (maxN (rows.map f')).map (k * ·) := by
  rw [← maxN_map (mul_lt hk), List.map_map, List.map_map]
  congr 1
  apply List.map_congr_left
  intro r _
  exact hf r

theorem aggregate_map {g : Change} (hg : Pos g) (p : Summary.Params) (raw : List Summary.Raw) (c : Int) :
    Summary.aggregate (g.params p) (raw.map (sraw g)) (c + g.number) = g.row (Summary.aggregate p raw c) := by
  unfold Summary.aggregate
  simp only [scycleRows_map]
  rw [smax hg.1 Summary.Raw.dchgCap Summary.Raw.dchgCap (sraw g) (fun _ => rfl),
    smax hg.1 Summary.Raw.chgCap Summary.Raw.chgCap (sraw g) (fun _ => rfl),
    smax hg.2 Summary.Raw.dchgEn Summary.Raw.dchgEn (sraw g) (fun _ => rfl),
    smax hg.2 Summary.Raw.chgEn Summary.Raw.chgEn (sraw g) (fun _ => rfl), efficiency_map hg.2]
  simp only [Change.params, errorFilter_map hg.2, Change.row, Option.map_none]

theorem addN_map (k acc : Rat) (v : Option Rat) : Summary.addN (k * acc) (v.map (k * ·)) = k * Summary.addN acc v := by
  cases v with
  | none => rfl
  | some x => simp only [Option.map_some, Summary.addN]; ring

theorem withThroughput_map (g : Change) (l : List Summary.Row) (x y : Rat) :
    Summary.withThroughput (g.capacity * x) (g.energy * y) (l.map g.row) = (Summary.withThroughput x y l).map g.row := by
  induction l generalizing x y with
  | nil => rfl
  | cons r l ih =>
    have e1 : (g.row r).chgCap = r.chgCap.map (g.capacity * ·) := rfl
    have e2 : (g.row r).chgEn = r.chgEn.map (g.energy * ·) := rfl
    simp only [List.map_cons, Summary.withThroughput, e1, e2, addN_map, ih, List.cons.injEq, and_true]
    simp [Change.row, Function.comp_def]

/-- the table before the durations are attached -/
def bare (p : Summary.Params) (diag : Option (List Int)) (raw : List Summary.Raw) : List Summary.Row :=
  Summary.withThroughput 0 0 (((Summary.cycles raw).filter fun c => (Summary.regCycles diag raw).contains c).map
    (Summary.aggregate p raw))

theorem table_eq (p : Summary.Params) (diag : Option (List Int)) (raw : List Summary.Raw) :
    Summary.table p diag raw = (bare p diag raw).map fun r => { r with duration := Summary.durationFor p raw r.label } := rfl

theorem bare_map {g : Change} (hg : Pos g) (p : Summary.Params) (diag : Option (List Int)) (raw : List Summary.Raw) :
    bare (g.params p) (diag.map (List.map (· + g.number))) (raw.map (sraw g)) = (bare p diag raw).map g.row := by
  unfold bare
  rw [cycles_map, regCycles_map, List.filter_map, List.map_map]
  have := withThroughput_map g
    (((Summary.cycles raw).filter fun c => (Summary.regCycles diag raw).contains c).map (Summary.aggregate p raw)) 0 0
  rw [mul_zero, mul_zero] at this
  rw [← this, List.map_map]
  congr 1
  have e : (Summary.cycles raw).filter ((fun c => ((Summary.regCycles diag raw).map (· + g.number)).contains c) ∘ (· + g.number)) =
      (Summary.cycles raw).filter fun c => (Summary.regCycles diag raw).contains c := by
    apply List.filter_congr
    intro x _
    simp
  rw [e]
  apply List.map_congr_left
  intro c _
  exact aggregate_map hg p raw c

/-- the charge capacity has reached the threshold -/
def reached (thr : Rat) (r : Summary.Raw) : Bool :=
  match r.chgCap with
  | some q => decide (q ≥ thr)
  | none => false

theorem durationAt_eq (p : Summary.Params) (raw : List Summary.Raw) (i : Nat) :
    Summary.durationAt p raw i = match (Summary.cycles raw)[i]? with
      | none => none
      | some c => match (Summary.cycleRows raw c).head?, (Summary.cycleRows raw c).find? (reached (p.nominal * p.fullFast)) with
        | some a, some b => some (round2 (b.stamp - a.stamp))
        | _, _ => none := rfl

theorem durationAt_map {g : Change} (hg : Pos g) (p : Summary.Params) (raw : List Summary.Raw) (i : Nat) :
    Summary.durationAt (g.params p) (raw.map (sraw g)) i = Summary.durationAt p raw i := by
  rw [durationAt_eq, durationAt_eq, cycles_map, List.getElem?_map]
  cases (Summary.cycles raw)[i]? with
  | none => rfl
  | some c =>
    have e : reached ((g.params p).nominal * (g.params p).fullFast) ∘ sraw g = reached (p.nominal * p.fullFast) := by
      funext r
      show (match r.chgCap.map (g.capacity * ·) with
        | some q => decide (q ≥ g.capacity * p.nominal * p.fullFast)
        | none => false) = _
      unfold reached
      cases r.chgCap with
      | none => rfl
      | some q =>
        simp only [Option.map_some, ge_iff_le, mul_assoc, mul_le_mul_iff_right₀ hg.1]
    simp only [Option.map_some, scycleRows_map, List.head?_map, List.find?_map, e]
    cases (Summary.cycleRows raw c).head? with
    | none => rfl
    | some a =>
      cases (Summary.cycleRows raw c).find? _ with
      | none => rfl
      | some b =>
        simp only [Option.map_some, sraw]
        rw [show b.stamp + g.stamp - (a.stamp + g.stamp) = b.stamp - a.stamp by ring]

theorem lastVolts_map (g : Change) (raw : List Summary.Raw) : Summary.lastVolts (raw.map (sraw g)) = Summary.lastVolts raw := by
  unfold Summary.lastVolts
  rw [cycles_map, List.getLast?_map]
  cases (Summary.cycles raw).getLast? with
  | none => rfl
  | some c =>
    simp only [Option.map_some, scycleRows_map, List.map_map]
    rfl

theorem lastComplete_map {g : Change} (hg : Pos g) (p : Summary.Params) (raw : List Summary.Raw) {r r' : Summary.Row}
    (hd : r'.dchgCap = r.dchgCap.map (g.capacity * ·)) (hc : r'.chgCap = r.chgCap.map (g.capacity * ·)) :
    Summary.lastComplete (g.params p) (raw.map (sraw g)) r' = Summary.lastComplete p raw r := by
  unfold Summary.lastComplete
  rw [lastVolts_map, hd, hc]
  congr 1
  cases r.dchgCap with
  | none => rfl
  | some d =>
    cases r.chgCap with
    | none => rfl
    | some c =>
      show decide (g.capacity * d > p.ratio * (g.capacity * c)) = decide (d > p.ratio * c)
      rw [show p.ratio * (g.capacity * c) = g.capacity * (p.ratio * c) by ring]
      simp only [gt_iff_lt, mul_lt hg.1]

/-- the rule for the last cycle, for two tables whose rows agree after `f` and `f'` -/
theorem summarize_rule {β : Type} {g : Change} (hg : Pos g) (p : Summary.Params) (diag diag' : Option (List Int)) (raw : List Summary.Raw)
    (f f' : Summary.Row → β)
    (h : (Summary.table (g.params p) diag' (raw.map (sraw g))).map f' = (Summary.table p diag raw).map f)
    (hcap : ∀ r' r, f' r' = f r → r'.dchgCap = r.dchgCap.map (g.capacity * ·) ∧ r'.chgCap = r.chgCap.map (g.capacity * ·)) :
    (Summary.summarize (g.params p) diag' (raw.map (sraw g))).map (List.map f') = (Summary.summarize p diag raw).map (List.map f) := by
  unfold Summary.summarize
  have hlen : (Summary.table (g.params p) diag' (raw.map (sraw g))).length = (Summary.table p diag raw).length := by
    have := congrArg List.length h
    simpa using this
  have hlast := congrArg List.getLast? h
  rw [List.getLast?_map, List.getLast?_map] at hlast
  have hdrop : (Summary.table (g.params p) diag' (raw.map (sraw g))).dropLast.map f' = (Summary.table p diag raw).dropLast.map f := by
    rw [List.map_dropLast, List.map_dropLast, h]
  simp only [hlen, lastVolts_map]
  split
  · simp [Except.map, h]
  · cases h1 : (Summary.table (g.params p) diag' (raw.map (sraw g))).getLast? with
    | none =>
      rw [h1] at hlast
      cases h2 : (Summary.table p diag raw).getLast? with
      | none =>
        show Except.map _ (if _ then _ else _) = Except.map _ (if _ then _ else _)
        rw [show (g.params p).vmin = p.vmin from rfl, show (g.params p).vmax = p.vmax from rfl]
        split <;> rfl
      | some r => rw [h2] at hlast; cases hlast
    | some r' =>
      rw [h1] at hlast
      cases h2 : (Summary.table p diag raw).getLast? with
      | none => rw [h2] at hlast; cases hlast
      | some r =>
        rw [h2] at hlast
        simp only [Option.map_some, Option.some.injEq] at hlast
        have := hcap r' r hlast
        simp only [lastComplete_map hg p raw this.1 this.2]
        split <;> simp [Except.map, h, hdrop]

theorem full_eq (p : Summary.Params) (diag : Option (List Int)) (t : Bool) (raw : List Raw) :
    SummaryFull.summarize p diag t raw = (Summary.summarize p diag (raw.map toRaw)).map (List.map fun r =>
      (r, byLabel t raw r.label ++ cvCols ((SummaryFull.cycleRows raw r.cycle).filter fun x => decide (x.curr > 0)))) := by
  unfold SummaryFull.summarize
  cases Summary.summarize p diag (raw.map toRaw) with
  | error e => rfl
  | ok s =>
    simp only [Except.map]
    congr 1
    rw [List.zipWith_map_right, List.zipWith_self]

theorem cols_append (g : Change) (a b : Dict String (Option Rat)) : g.cols (a ++ b) = g.cols a ++ g.cols b := List.map_append

theorem otherCols_map {g : Change} (hg : Pos g) (t : Bool) (raw : List Raw) (r : Summary.Row) :
    byLabel t (raw.map g.raw) (g.row r).label ++
      cvCols ((SummaryFull.cycleRows (raw.map g.raw) (g.row r).cycle).filter fun x => decide (x.curr > 0)) =
    g.cols (byLabel t raw r.label ++ cvCols ((SummaryFull.cycleRows raw r.cycle).filter fun x => decide (x.curr > 0))) := by
  rw [cols_append]
  congr 1
  · exact byLabel_map hg t raw r.label
  · rw [show (g.row r).cycle = r.cycle + g.number from rfl, cycleRows_map, List.filter_map, ← cvCols_map]
    rfl

/-- C164: with other clocks and other units the summary has the same rows, with the time stamps moved and the capacities and
energies in the new units. -/
theorem C164_units (g : Change) (hc : 0 < g.capacity) (he : 0 < g.energy) (hn : g.number = 0) (p : Summary.Params)
    (diag : Option (List Int)) (t : Bool) (raw : List Raw) :
    SummaryFull.summarize (g.params p) diag t (raw.map g.raw) =
      (SummaryFull.summarize p diag t raw).map (List.map fun x => (g.row x.1, g.cols x.2)) := by
  have hg : Pos g := ⟨hc, he⟩
  have hd : diag.map (List.map (· + g.number)) = diag := by
    rw [hn]
    cases diag <;> simp
  have hraw : (raw.map g.raw).map toRaw = (raw.map toRaw).map (sraw g) := by simp only [List.map_map]; rfl
  rw [full_eq, full_eq, hraw]
  have key : (Summary.summarize (g.params p) diag ((raw.map toRaw).map (sraw g))).map (List.map id) =
      (Summary.summarize p diag (raw.map toRaw)).map (List.map g.row) := by
    refine summarize_rule hg p diag diag _ g.row id ?_ ?_
    · rw [List.map_id, table_eq, table_eq]
      have := bare_map hg p diag (raw.map toRaw)
      rw [hd] at this
      rw [this]
      generalize raw.map toRaw = sr
      rw [List.map_map, List.map_map]
      apply List.map_congr_left
      intro r _
      have : Summary.durationFor (g.params p) (sr.map (sraw g)) (g.row r).label = Summary.durationFor p sr r.label := by
        unfold Summary.durationFor
        rw [show (g.row r).label = r.label by simp [Change.row, hn]]
        split
        · exact durationAt_map hg p _ _
        · rfl
      simp only [Function.comp_apply, this]
      rfl
    · rintro r' r rfl
      exact ⟨rfl, rfl⟩
  cases h1 : Summary.summarize (g.params p) diag ((raw.map toRaw).map (sraw g)) with
  | error e =>
    cases h2 : Summary.summarize p diag (raw.map toRaw) with
    | error e' => rw [h1, h2] at key; cases key; rfl
    | ok s => rw [h1, h2] at key; cases key
  | ok s' =>
    cases h2 : Summary.summarize p diag (raw.map toRaw) with
    | error e' => rw [h1, h2] at key; cases key
    | ok s =>
      rw [h1, h2] at key
      have key : s' = s.map g.row := by simpa [Except.map] using key
      subst key
      simp only [Except.map, List.map_map]
      congr 1
      apply List.map_congr_left
      intro r _
      simp only [Function.comp_apply, otherCols_map hg t raw r]

/-- C164: with other clocks, units and another first cycle number the summary has the same rows under the new numbers, but for
the duration of the charge. -/
theorem C164_numbers_partial (g : Change) (hc : 0 < g.capacity) (he : 0 < g.energy) (p : Summary.Params)
    (diag : Option (List Int)) (t : Bool) (raw : List Raw) :
    (SummaryFull.summarize (g.params p) (diag.map (List.map (· + g.number))) t (raw.map g.raw)).map
      (List.map fun x => (noDuration x.1, x.2)) =
    (SummaryFull.summarize p diag t raw).map (List.map fun x => (noDuration (g.row x.1), g.cols x.2)) := by
  have hg : Pos g := ⟨hc, he⟩
  have hraw : (raw.map g.raw).map toRaw = (raw.map toRaw).map (sraw g) := by simp only [List.map_map]; rfl
  rw [full_eq, full_eq, hraw]
  have key : (Summary.summarize (g.params p) (diag.map (List.map (· + g.number))) ((raw.map toRaw).map (sraw g))).map (List.map noDuration) =
      (Summary.summarize p diag (raw.map toRaw)).map (List.map fun r => noDuration (g.row r)) := by
    refine summarize_rule hg p diag _ _ (fun r => noDuration (g.row r)) noDuration ?_ ?_
    · rw [table_eq, table_eq, bare_map hg p diag (raw.map toRaw)]
      generalize raw.map toRaw = sr
      rw [List.map_map, List.map_map, List.map_map]
      rfl
    · intro r' r h
      exact ⟨by simpa [noDuration, Change.row] using congrArg Summary.Row.dchgCap h,
        by simpa [noDuration, Change.row] using congrArg Summary.Row.chgCap h⟩
  cases h1 : Summary.summarize (g.params p) (diag.map (List.map (· + g.number))) ((raw.map toRaw).map (sraw g)) with
  | error e =>
    cases h2 : Summary.summarize p diag (raw.map toRaw) with
    | error e' => rw [h1, h2] at key; cases key; rfl
    | ok s => rw [h1, h2] at key; cases key
  | ok s' =>
    cases h2 : Summary.summarize p diag (raw.map toRaw) with
    | error e' => rw [h1, h2] at key; cases key
    | ok s =>
      rw [h1, h2] at key
      have key : s'.map noDuration = s.map (fun r => noDuration (g.row r)) := by simpa [Except.map] using key
      simp only [Except.map, List.map_map]
      congr 1
      have h3 : ∀ l : List Summary.Row, l.map ((fun x : Summary.Row × Dict String (Option Rat) => (noDuration x.1, x.2)) ∘ fun r =>
          (r, byLabel t (raw.map g.raw) r.label ++
            cvCols ((SummaryFull.cycleRows (raw.map g.raw) r.cycle).filter fun x => decide (x.curr > 0)))) =
          (l.map noDuration).map fun r => (r, byLabel t (raw.map g.raw) r.label ++
            cvCols ((SummaryFull.cycleRows (raw.map g.raw) r.cycle).filter fun x => decide (x.curr > 0))) := by
        intro l
        rw [List.map_map]
        rfl
      rw [h3, key, List.map_map]
      apply List.map_congr_left
      intro r _
      have := otherCols_map hg t raw r
      simp only [Function.comp_apply]
      rw [← this]
      rfl

/-! ### the diagnostic summary -/

theorem get_cols (g : Change) (d : Dict String (Option Rat)) (nm : String) :
    Dict.get? (g.cols d) nm = (Dict.get? d nm).map (Option.map (g.value nm)) := by
  induction d with
  | nil => rfl
  | cons p d ih =>
    simp only [Change.cols, List.map_cons] at ih ⊢
    simp only [Dict.get?]
    by_cases h : p.1 = nm
    · simp [h]
    · simp only [h, if_false]
      exact ih

theorem get_types (n : Int) (d : Dict Int String) (c : Int) :
    Dict.get? (d.map fun p : Int × String => (p.1 + n, p.2)) (c + n) = Dict.get? d c := by
  induction d with
  | nil => rfl
  | cons p d ih =>
    simp only [List.map_cons, Dict.get?, Int.add_left_inj]
    by_cases h : p.1 = c
    · simp [h]
    · simp only [h, if_false]
      exact ih

theorem ratio_map {k : Rat} (hk : 0 < k) (d c : Option Rat) : ratio (d.map (k * ·)) (c.map (k * ·)) = ratio d c := by
  cases d with
  | none => rfl
  | some d =>
    cases c with
    | none => rfl
    | some c =>
      simp only [Option.map_some, ratio]
      by_cases h : c = 0
      · simp [h]
      · rw [if_neg h, if_neg (mul_ne_zero hk.ne' h), mul_div_mul_left _ _ hk.ne']

theorem chargeRows_map (g : Change) (rows : List Raw) : chargeRows (rows.map g.raw) = (chargeRows rows).map g.raw := by
  have e : minStep (rows.map g.raw) = minStep rows := by
    unfold minStep
    rw [List.map_map]
    rfl
  unfold chargeRows
  rw [e]
  cases minStep rows with
  | none => rfl
  | some s =>
    simp only [List.filter_map]
    rfl

theorem diagCols_map {g : Change} (hg : Pos g) (t : Bool) (raw : List Raw) (c : Int) :
    diagCols t (raw.map g.raw) (c + g.number) = g.cols (diagCols t raw c) := by
  unfold diagCols
  simp only [cycleRows_map, diagAggRow_map hg, paused_map, chargeRows_map, cvCols_map, get_cols]
  generalize aggRow (diagAggregation t) (diagSummaryCols t) (SummaryFull.cycleRows raw c) = a
  have e : ∀ nm, g.value nm = (g.capacity * ·) → ((Dict.get? a nm).map (Option.map (g.value nm))).getD none =
      ((Dict.get? a nm).getD none).map (g.capacity * ·) := by
    intro nm h
    rw [h]
    cases Dict.get? a nm <;> rfl
  rw [e "discharge_capacity" rfl, e "charge_capacity" rfl, ratio_map hg.1]
  have h1 : ∀ o : Option Rat, o.map (g.value "coulombic_efficiency") = o := same fun _ => rfl
  have h2 : ∀ o : Option Rat, o.map (g.value "paused") = o := same fun _ => rfl
  rw [cols_append, cols_append]
  congr 2
  simp only [Change.cols, List.map_cons, List.map_nil, h1, h2]

theorem mapE_map {α β γ δ : Type} (f : α → Except Err β) (f' : γ → Except Err δ) (u : α → γ) (v : β → δ)
    (h : ∀ a, f' (u a) = (f a).map v) (l : List α) : Summary.mapE f' (l.map u) = (Summary.mapE f l).map (List.map v) := by
  induction l with
  | nil => rfl
  | cons a l ih =>
    simp only [List.map_cons, Summary.mapE, h, ih]
    cases f a with
    | error e => rfl
    | ok b =>
      simp only [Except.map]
      cases Summary.mapE f l <;> rfl

/-- C164: with other clocks, units and another first cycle number, and the diagnostics given by the new numbers, the diagnostic
summary has the same rows. -/
theorem C164_diagnostic (g : Change) (hc : 0 < g.capacity) (he : 0 < g.energy) (cfg : Diagnostic.Config) (t : Bool) (raw : List Raw) :
    summarizeDiagnostic (some (g.config cfg)) t (raw.map g.raw) =
      (summarizeDiagnostic (some cfg) t raw).map (List.map g.diagRow) := by
  have hg : Pos g := ⟨hc, he⟩
  unfold summarizeDiagnostic
  have e1 : (raw.map g.raw).map Raw.cycle = (raw.map Raw.cycle).map (· + g.number) := by simp only [List.map_map]; rfl
  have e2 : ((groupKeys (raw.map Raw.cycle)).map (· + g.number)).filter (fun c => (g.config cfg).allIx.contains c) =
      ((groupKeys (raw.map Raw.cycle)).filter fun c => cfg.allIx.contains c).map (· + g.number) := by
    rw [List.filter_map]
    congr 1
    apply List.filter_congr
    intro x _
    simp [Change.config]
  simp only [e1, groupKeys_map, e2]
  apply mapE_map
  intro c
  show (match Dict.get? (cfg.typeByIx.map fun p : Int × String => (p.1 + g.number, p.2)) (c + g.number) with
    | none => _ | some _ => _) = _
  rw [get_types]
  cases Dict.get? cfg.typeByIx c with
  | none => rfl
  | some ty =>
    simp only [Except.map, diagCols_map hg]
    rfl

/-! ### cases -/

/-- a record of a run of two cycles -/
def rec' (c : Int) (s t q : Rat) : Raw :=
  ⟨c, some 1, t, 3 + q, 1, q, some q, some (3 * q), some (3 * q), none, some 30, s⟩

/-- two cycles that reach the threshold after 10 and after 50 seconds -/
def twoCycles : List Raw :=
  [rec' 0 0 0 0, rec' 0 10 10 1, rec' 1 20 20 0, rec' 1 70 70 1]

/-- the clock starts an hour later, the stamps are a day later, milliampere hours and milliwatt hours -/
def other : Change := ⟨3600, 86400, 0, 1000, 1000⟩

/-- the cycles are numbered from 1 -/
def fromOne : Change := ⟨0, 0, 1, 1, 1⟩

example : 0 < other.capacity ∧ 0 < other.energy ∧ other.number = 0 :=
  ⟨by norm_num [other], by norm_num [other], rfl⟩

example : ((SummaryFull.summarize {} none true twoCycles).toOption.map (List.map fun x => (x.1.cycle, x.1.chgCap))) =
      some [(0, some 1), (1, some 1)] ∧
    ((SummaryFull.summarize (other.params {}) none true (twoCycles.map other.raw)).toOption.map
      (List.map fun x => (x.1.cycle, x.1.chgCap))) = some [(0, some 1000), (1, some 1000)] ∧
    ((SummaryFull.summarize (other.params {}) none true (twoCycles.map other.raw)).toOption.map
      (List.map fun x => (x.1.duration, Dict.get? x.2 "date_time_iso"))) =
      some [(some 10, some (some 86400)), (some 50, some (some 86420))] := by
  decide +kernel

/-- the second cycle is a diagnostic one -/
def second : Diagnostic.Config := ⟨[("rpt_0.2C", [1])], [(1, "rpt_0.2C")], [], [1], [], [1], []⟩

example : 0 < fromOne.capacity ∧ 0 < fromOne.energy ∧
    (summarizeDiagnostic (some second) true twoCycles).toOption.map (List.map fun r => (r.cycle, r.cycleType)) =
      some [(1, "rpt_0.2C")] ∧
    (summarizeDiagnostic (some (fromOne.config second)) true (twoCycles.map fromOne.raw)).toOption.map
      (List.map fun r => (r.cycle, r.cycleType)) = some [(2, "rpt_0.2C")] :=
  ⟨by norm_num [fromOne], by norm_num [fromOne], by decide +kernel, by decide +kernel⟩

/-- C164 fails: the cycles of a run that are numbered from 1 instead of 0 get other durations of their charges. -/
theorem C164_duration_violated :
    (SummaryFull.summarize {} none true twoCycles).toOption.map (List.map fun x => (x.1.cycle, x.1.duration)) =
      some [(0, some 10), (1, some 50)] ∧
    (SummaryFull.summarize {} none true (twoCycles.map fromOne.raw)).toOption.map (List.map fun x => (x.1.cycle, x.1.duration)) =
      some [(1, some 50), (2, none)] := by
  decide +kernel

end Beep.Props.Metamorphic
