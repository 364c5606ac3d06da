import Verif.Spec.SummaryFull
import Verif.Props.Summary
import Verif.Props.Segments
import Verif.Props.Diagnostic
/-
C80-C82: the remaining columns of the cycle summary, the diagnostic summary, and the raw data
after structuring.
-/
namespace Beep.Props.SummaryFull
open Beep Beep.Pandas Beep.SummaryFull Beep.Spec.SummaryFull
open Beep.Spec.Summary (IsMax)
open Beep.Spec.Stats (IsMean present)
open Beep.Spec.Segments (FirstAt Gap)
open Beep.Spec.Diagnostic (Listed)

theorem isMin_iff {vals : List (Option Rat)} {m : Rat} : minN vals = some m ↔ IsMin vals m := by
  constructor
  · exact minN_some vals m
  · rintro ⟨h1, h2⟩
    cases h : minN vals with
    | none => exact absurd ⟨m, h1⟩ ((minN_none vals).mp h)
    | some w =>
      obtain ⟨g1, g2⟩ := minN_some vals w h
      rw [le_antisymm (g2 m h1) (h2 w g1)]

theorem fm_none (l : List (Option Rat)) : (none :: l).filterMap id = l.filterMap id := rfl
theorem fm_some (a : Rat) (l : List (Option Rat)) : (some a :: l).filterMap id = a :: l.filterMap id := rfl

theorem lastN_iff {vals : List (Option Rat)} {v : Rat} : lastN vals = some v ↔ LastPresent vals v := by
  unfold lastN LastPresent
  constructor
  · intro h
    induction vals with
    | nil => simp at h
    | cons a l ih =>
      by_cases hl : l.filterMap id = []
      · cases a with
        | none => rw [fm_none, hl] at h; cases h
        | some a =>
          rw [fm_some, hl] at h
          cases h
          refine ⟨[], l, rfl, ?_⟩
          intro x hx
          cases x with
          | none => rfl
          | some y =>
            have : y ∈ l.filterMap id := List.mem_filterMap.mpr ⟨some y, hx, rfl⟩
            rw [hl] at this; cases this
      · have h' : (l.filterMap id).getLast? = some v := by
          cases a with
          | none => rwa [fm_none] at h
          | some a => rwa [fm_some, List.getLast?_cons_of_ne_nil hl] at h
        obtain ⟨b, c, rfl, e⟩ := ih h'
        exact ⟨a :: b, c, rfl, e⟩
  · rintro ⟨b, c, rfl, e⟩
    have : c.filterMap id = [] := by
      rw [List.filterMap_eq_nil_iff]
      intro x hx
      rw [e x hx]; rfl
    rw [List.filterMap_append, fm_some, this]
    simp

theorem firstN_some {α : Type} (f : α → Rat) (l : List α) :
    firstN (l.map (fun r => some (f r))) = l.head?.map f := by
  cases l <;> rfl

/-- the value in a column of a row of the summary -/
theorem lookup_cols (b : Bool) (raw : List Raw) (c : Int) (rows : List Raw) :
    let cols := byLabel b raw c ++ cvCols rows
    let g := cycleRows raw c
    cols.get? "cycle_index" = some (firstN (g.map (fun r => some (r.cycle : Rat)))) ∧
    cols.get? "discharge_capacity" = some (maxN (g.map Raw.dchgCap)) ∧
    cols.get? "charge_capacity" = some (maxN (g.map (fun r => some r.cap))) ∧
    cols.get? "dc_internal_resistance" = some (lastN (g.map Raw.ir)) ∧
    cols.get? "date_time_iso" = some (firstN (g.map (fun r => some r.stamp))) ∧
    cols.get? "temperature_maximum" = (if b then some (maxN (g.map Raw.temp)) else none) ∧
    cols.get? "temperature_average" = (if b then some (meanN (g.map Raw.temp)) else none) ∧
    cols.get? "temperature_minimum" = (if b then some (minN (g.map Raw.temp)) else none) ∧
    cols.get? "time_temperature_integrated" = (if b then some (timeTemperature g) else none) ∧
    cols.get? "paused" = some (some (paused g)) ∧
    cols.get? "CV_time" = some (Segments.cvTime (Segments.cvSegment {} (rows.map toSeg))) ∧
    cols.get? "CV_current" = some (Segments.cvCurrent (Segments.cvSegment {} (rows.map toSeg))) ∧
    cols.get? "CV_capacity" = some (Segments.cvCapacity (Segments.cvSegment {} (rows.map toSeg))) := by
  cases b <;> exact ⟨rfl, rfl, rfl, rfl, rfl, rfl, rfl, rfl, rfl, rfl, rfl, rfl, rfl⟩

/-- the trapezoidal rule -/
theorem trapz_some (xs ys : List Rat) (h : xs.length = ys.length) :
    trapz (xs.zip (ys.map some)) = some (∑ i ∈ Finset.range (xs.length - 1),
      (xs.getD (i + 1) 0 - xs.getD i 0) * (ys.getD i 0 + ys.getD (i + 1) 0) / 2) := by
  induction xs generalizing ys with
  | nil => rfl
  | cons x xs ih =>
    cases ys with
    | nil => simp at h
    | cons y ys =>
      cases xs with
      | nil =>
        cases ys with
        | nil => rfl
        | cons => simp at h
      | cons x' xs =>
        cases ys with
        | nil => simp at h
        | cons y' ys =>
          have := ih (y' :: ys) (by simpa using h)
          simp only [List.map_cons, List.zip_cons_cons] at this
          simp only [List.map_cons, List.zip_cons_cons, trapz, this]
          have e : (x :: x' :: xs).length - 1 = ((x' :: xs).length - 1) + 1 := by simp
          rw [e, Finset.sum_range_succ', add_comm]
          rfl

theorem summarize_mem {p : Summary.Params} {diag : Option (List Int)} {b : Bool} {raw : List Raw}
    {out : List (Summary.Row × Dict String (Option Rat))} (h : summarize p diag b raw = .ok out) :
    ∃ s, Summary.summarize p diag (raw.map toRaw) = .ok s ∧ out.map Prod.fst = s ∧
      ∀ r cols, (r, cols) ∈ out → r.label = r.cycle ∧
        cols = byLabel b raw r.cycle ++ cvCols ((cycleRows raw r.cycle).filter (fun x => decide (x.curr > 0))) := by
  unfold summarize at h
  split at h
  · cases h
  rename_i s hs
  cases h
  refine ⟨s, hs, ?_, ?_⟩
  · rw [List.zipWith_map_right, List.zipWith_self, List.map_map]
    simp [Function.comp_def]
  · intro r cols hm
    rw [List.zipWith_map_right, List.zipWith_self, List.mem_map] at hm
    obtain ⟨r', hr', e⟩ := hm
    cases e
    have := (Props.Summary.C62_capacities p diag _ s hs r hr').1
    rw [this]
    exact ⟨rfl, rfl⟩

/-- C80, aggregates: in the summary row of a cycle, the internal resistance is the last one
recorded in the cycle, the date is that of its first row, and the temperature columns are the
largest, mean and smallest temperature of the cycle (absent without temperature data). -/
theorem C80_aggregates (p : Summary.Params) (diag : Option (List Int)) (hasTemp : Bool) (raw : List Raw)
    (out : List (Summary.Row × Dict String (Option Rat))) (h : summarize p diag hasTemp raw = .ok out)
    (r : Summary.Row) (cols : Dict String (Option Rat)) (hr : (r, cols) ∈ out) :
    (∃ x, cols.get? "dc_internal_resistance" = some x ∧ ∀ v, x = some v ↔ LastPresent ((rowsOf raw r.cycle).map Raw.ir) v) ∧
    cols.get? "date_time_iso" = some ((rowsOf raw r.cycle).head?.map Raw.stamp) ∧
    (hasTemp = true → ∃ x y z, cols.get? "temperature_maximum" = some x ∧ cols.get? "temperature_average" = some y ∧
      cols.get? "temperature_minimum" = some z ∧
      (∀ v, x = some v ↔ IsMax ((rowsOf raw r.cycle).map Raw.temp) v) ∧
      (∀ v, y = some v ↔ IsMean (present ((rowsOf raw r.cycle).map Raw.temp)) v) ∧
      (∀ v, z = some v ↔ IsMin ((rowsOf raw r.cycle).map Raw.temp) v)) ∧
    (hasTemp = false → ∀ k ∈ ["temperature_maximum", "temperature_average", "temperature_minimum",
      "time_temperature_integrated"], cols.get? k = none) := by
  obtain ⟨s, _, _, hm⟩ := summarize_mem h
  obtain ⟨_, e⟩ := hm r cols hr
  obtain ⟨_, _, _, h4, h5, h6, h7, h8, h9, _⟩ := lookup_cols hasTemp raw r.cycle
    ((cycleRows raw r.cycle).filter (fun x => decide (x.curr > 0)))
  simp only [← e] at h4 h5 h6 h7 h8 h9
  refine ⟨⟨_, h4, fun v => lastN_iff⟩, ?_, ?_, ?_⟩
  · rw [h5, firstN_some]; rfl
  · rintro rfl
    exact ⟨_, _, _, h6, h7, h8, fun v => Summary.isMax_iff, fun v => Proof.Stats.meanN_iff _ v, fun v => isMin_iff⟩
  · rintro rfl k hk
    simp only [List.mem_cons, List.not_mem_nil, or_false] at hk
    rcases hk with rfl | rfl | rfl | rfl <;> assumption

theorem paused_spec (rows : List Raw) : IsPause (rows.map Raw.stamp) (paused rows) := by
  have := Props.Segments.C19_pause (rows.map (fun r => some r.stamp)) 3600
  unfold IsPause
  rw [List.map_map]
  exact this

/-- C80, pause: the longest gap between consecutive rows of the cycle if one exceeds an hour. -/
theorem C80_paused (p : Summary.Params) (diag : Option (List Int)) (hasTemp : Bool) (raw : List Raw)
    (out : List (Summary.Row × Dict String (Option Rat))) (h : summarize p diag hasTemp raw = .ok out)
    (r : Summary.Row) (cols : Dict String (Option Rat)) (hr : (r, cols) ∈ out) :
    ∃ x, cols.get? "paused" = some (some x) ∧ IsPause ((rowsOf raw r.cycle).map Raw.stamp) x := by
  obtain ⟨s, _, _, hm⟩ := summarize_mem h
  obtain ⟨_, e⟩ := hm r cols hr
  obtain ⟨_, _, _, _, _, _, _, _, _, h10, _⟩ := lookup_cols hasTemp raw r.cycle
    ((cycleRows raw r.cycle).filter (fun x => decide (x.curr > 0)))
  simp only [← e] at h10
  exact ⟨_, h10, paused_spec _⟩

/-- C80, time-temperature integral: the trapezoidal integral of the cycle's temperatures over
its time in minutes. -/
theorem C80_integral (p : Summary.Params) (diag : Option (List Int)) (raw : List Raw)
    (out : List (Summary.Row × Dict String (Option Rat))) (h : summarize p diag true raw = .ok out)
    (r : Summary.Row) (cols : Dict String (Option Rat)) (hr : (r, cols) ∈ out)
    (temps : List Rat) (ht : (rowsOf raw r.cycle).map Raw.temp = temps.map some) :
    cols.get? "time_temperature_integrated" =
      some (some (trapezoid ((rowsOf raw r.cycle).map Raw.stamp) temps)) := by
  obtain ⟨s, _, _, hm⟩ := summarize_mem h
  obtain ⟨_, e⟩ := hm r cols hr
  obtain ⟨_, _, _, _, _, _, _, _, h9, _⟩ := lookup_cols true raw r.cycle
    ((cycleRows raw r.cycle).filter (fun x => decide (x.curr > 0)))
  simp only [← e] at h9
  rw [h9]
  simp only [if_true]
  congr 1
  change timeTemperature (rowsOf raw r.cycle) = _
  generalize rowsOf raw r.cycle = g at *
  unfold timeTemperature trapezoid
  have e1 : g.map (fun r => (minutes g r, r.temp)) = (g.map (minutes g)).zip (temps.map some) := by
    rw [← ht, List.zip_map']
  have hl : g.length = temps.length := by
    have := congrArg List.length ht
    simpa using this
  rw [e1, trapz_some _ _ (by simpa using hl)]
  congr 1
  simp only [List.length_map]
  apply Finset.sum_congr rfl
  intro i hi
  rw [Finset.mem_range] at hi
  have h1 : i < g.length := by omega
  have h2 : i + 1 < g.length := by omega
  simp only [List.getD_eq_getElem?_getD, List.getElem?_map, List.getElem?_eq_getElem h1, List.getElem?_eq_getElem h2,
    Option.map_some, Option.getD_some]
  unfold minutes
  cases g with
  | nil => simp at h1
  | cons a l =>
    simp only [List.head?_cons]
    ring

/-- the CV columns of a list of rows -/
theorem cv_values (rows : List Raw) (hs : rows.Pairwise (fun a b => a.time < b.time)) (i : Nat)
    (hi : FirstAt {} (records rows) (i + 1)) :
    ∃ a b, rows[i]? = some a ∧ rows.getLast? = some b ∧
      Segments.cvTime (Segments.cvSegment {} (rows.map toSeg)) = some (b.time - a.time) ∧
      Segments.cvCurrent (Segments.cvSegment {} (rows.map toSeg)) = some b.curr ∧
      Segments.cvCapacity (Segments.cvSegment {} (rows.map toSeg)) = some (b.cap - a.cap) := by
  change FirstAt {} (rows.map toSeg) (i + 1) at hi
  have hs' : (rows.map toSeg).Pairwise (fun a b => a.time < b.time) := by
    rw [List.pairwise_map]
    exact hs
  have hd := Props.Segments.C18_segment_partial {} (by norm_num) _ hs' i hi
  obtain ⟨⟨x, _, h1, _⟩, _⟩ := hi
  have hlt : i < rows.length := by
    have := (List.getElem?_eq_some_iff.mp h1).1
    rw [List.length_map] at this
    omega
  rw [hd, ← List.map_drop]
  have hd' : rows.drop i ≠ [] := by
    intro hh
    have := congrArg List.length hh
    simp at this
    omega
  refine ⟨rows[i], (rows.drop i).getLast hd', List.getElem?_eq_getElem hlt, ?_, ?_⟩
  · rw [List.getLast_drop, List.getLast?_eq_some_getLast]
  · have e1 : ((rows.drop i).map toSeg).head? = some (toSeg rows[i]) := by
      rw [List.head?_map, List.head?_drop, List.getElem?_eq_getElem hlt]; rfl
    have e2 : ((rows.drop i).map toSeg).getLast? = some (toSeg ((rows.drop i).getLast hd')) := by
      rw [List.getLast?_map, List.getLast?_eq_some_getLast hd']; rfl
    exact Props.Segments.C18_quantities _ _ _ e1 e2

/-- C80 (partial: as in C18, the constant-voltage criterion is first met by a pair of charging
rows other than the first, and their times increase).  The CV columns of a cycle are the
duration, final current and charge of the constant-voltage segment of the cycle's own rows with
positive current. -/
theorem C80_cv_partial (p : Summary.Params) (diag : Option (List Int)) (hasTemp : Bool) (raw : List Raw)
    (out : List (Summary.Row × Dict String (Option Rat))) (h : summarize p diag hasTemp raw = .ok out)
    (r : Summary.Row) (cols : Dict String (Option Rat)) (hr : (r, cols) ∈ out)
    (rows : List Raw) (hrows : rows = (rowsOf raw r.cycle).filter (fun x => decide (0 < x.curr)))
    (hs : rows.Pairwise (fun a b => a.time < b.time)) (i : Nat) (hi : FirstAt {} (records rows) (i + 1)) :
    ∃ a b, rows[i]? = some a ∧ rows.getLast? = some b ∧
      cols.get? "CV_time" = some (some (b.time - a.time)) ∧ cols.get? "CV_current" = some (some b.curr) ∧
      cols.get? "CV_capacity" = some (some (b.cap - a.cap)) := by
  obtain ⟨s, _, _, hm⟩ := summarize_mem h
  obtain ⟨_, e⟩ := hm r cols hr
  have e' : rows = (cycleRows raw r.cycle).filter (fun x => decide (x.curr > 0)) := hrows
  rw [← e'] at e
  obtain ⟨_, _, _, _, _, _, _, _, _, _, h11, h12, h13⟩ := lookup_cols hasTemp raw r.cycle rows
  simp only [← e] at h11 h12 h13
  obtain ⟨a, b, ha, hb, g1, g2, g3⟩ := cv_values rows hs i hi
  exact ⟨a, b, ha, hb, by rw [h11, g1], by rw [h12, g2], by rw [h13, g3]⟩

/-- the CV columns of rows at constant voltage from the start -/
theorem cv_from_start (rows : List Raw) (hs : rows.Pairwise (fun a b => a.time < b.time))
    (hi : FirstAt {} (records rows) 0) :
    Segments.cvTime (Segments.cvSegment {} (rows.map toSeg)) = some 0 ∧
      Segments.cvCapacity (Segments.cvSegment {} (rows.map toSeg)) = some 0 := by
  change FirstAt {} (rows.map toSeg) 0 at hi
  have hs' : (rows.map toSeg).Pairwise (fun a b => a.time < b.time) := by
    rw [List.pairwise_map]
    exact hs
  have hne : rows.map toSeg ≠ [] := by
    obtain ⟨⟨a, b, h1, _⟩, _⟩ := hi
    intro e
    rw [e] at h1
    cases h1
  rw [Props.Segments.C18_from_start_violated {} (by norm_num) _ _ hs' (List.getLast?_eq_some_getLast hne) hi]
  obtain ⟨g1, _, g3⟩ := Props.Segments.C18_quantities [(rows.map toSeg).getLast hne]
    ((rows.map toSeg).getLast hne) ((rows.map toSeg).getLast hne) rfl rfl
  rw [g1, g3, sub_self, sub_self]
  exact ⟨rfl, rfl⟩

/-- the CV columns of rows that are never at constant voltage -/
theorem cv_never (rows pre : List Raw) (y z : Raw) (e : rows = pre ++ [y, z])
    (hs : rows.Pairwise (fun a b => a.time < b.time)) (hn : Spec.Segments.Never {} (records rows)) :
    Segments.cvTime (Segments.cvSegment {} (rows.map toSeg)) = some (z.time - y.time) ∧
      Segments.cvCurrent (Segments.cvSegment {} (rows.map toSeg)) = some z.curr ∧
      Segments.cvCapacity (Segments.cvSegment {} (rows.map toSeg)) = some (z.cap - y.cap) := by
  change Spec.Segments.Never {} (rows.map toSeg) at hn
  have hs' : (rows.map toSeg).Pairwise (fun a b => a.time < b.time) := by
    rw [List.pairwise_map]
    exact hs
  rw [Props.Segments.C18_no_cv_violated {} (by norm_num) _ (pre.map toSeg) (toSeg y) (toSeg z)
    (by rw [e, List.map_append]; rfl) hs' hn]
  exact Props.Segments.C18_quantities [toSeg y, toSeg z] (toSeg y) (toSeg z) rfl rfl

/-- C80 fails for a cycle whose charging rows are at constant voltage from the start: the
duration and charge of the constant-voltage segment are reported as 0. -/
theorem C80_cv_from_start_violated (p : Summary.Params) (diag : Option (List Int)) (hasTemp : Bool) (raw : List Raw)
    (out : List (Summary.Row × Dict String (Option Rat))) (h : summarize p diag hasTemp raw = .ok out)
    (r : Summary.Row) (cols : Dict String (Option Rat)) (hr : (r, cols) ∈ out)
    (rows : List Raw) (hrows : rows = (rowsOf raw r.cycle).filter (fun x => decide (0 < x.curr)))
    (hs : rows.Pairwise (fun a b => a.time < b.time)) (hi : FirstAt {} (records rows) 0) :
    cols.get? "CV_time" = some (some 0) ∧ cols.get? "CV_capacity" = some (some 0) := by
  obtain ⟨s, _, _, hm⟩ := summarize_mem h
  obtain ⟨_, e⟩ := hm r cols hr
  have e' : rows = (cycleRows raw r.cycle).filter (fun x => decide (x.curr > 0)) := hrows
  rw [← e'] at e
  obtain ⟨_, _, _, _, _, _, _, _, _, _, h11, _, h13⟩ := lookup_cols hasTemp raw r.cycle rows
  simp only [← e] at h11 h13
  obtain ⟨g1, g3⟩ := cv_from_start rows hs hi
  exact ⟨by rw [h11, g1], by rw [h13, g3]⟩

/-- C80 fails for a cycle that charges but is never at constant voltage: the values of the last
two charging rows are reported. -/
theorem C80_cv_never_violated (p : Summary.Params) (diag : Option (List Int)) (hasTemp : Bool) (raw : List Raw)
    (out : List (Summary.Row × Dict String (Option Rat))) (h : summarize p diag hasTemp raw = .ok out)
    (r : Summary.Row) (cols : Dict String (Option Rat)) (hr : (r, cols) ∈ out)
    (pre : List Raw) (y z : Raw)
    (hrows : (rowsOf raw r.cycle).filter (fun x => decide (0 < x.curr)) = pre ++ [y, z])
    (hs : (pre ++ [y, z]).Pairwise (fun a b => a.time < b.time)) (hn : Spec.Segments.Never {} (records (pre ++ [y, z]))) :
    cols.get? "CV_time" = some (some (z.time - y.time)) ∧ cols.get? "CV_current" = some (some z.curr) ∧
      cols.get? "CV_capacity" = some (some (z.cap - y.cap)) := by
  obtain ⟨s, _, _, hm⟩ := summarize_mem h
  obtain ⟨_, e⟩ := hm r cols hr
  have e' : (cycleRows raw r.cycle).filter (fun x => decide (x.curr > 0)) = pre ++ [y, z] := hrows
  rw [e'] at e
  obtain ⟨_, _, _, _, _, _, _, _, _, _, h11, h12, h13⟩ := lookup_cols hasTemp raw r.cycle (pre ++ [y, z])
  simp only [← e] at h11 h12 h13
  obtain ⟨g1, g2, g3⟩ := cv_never _ pre y z rfl hs hn
  exact ⟨by rw [h11, g1], by rw [h12, g2], by rw [h13, g3]⟩

/-- C80: a cycle that never charges has no CV values. -/
theorem C80_cv_absent (p : Summary.Params) (diag : Option (List Int)) (hasTemp : Bool) (raw : List Raw)
    (out : List (Summary.Row × Dict String (Option Rat))) (h : summarize p diag hasTemp raw = .ok out)
    (r : Summary.Row) (cols : Dict String (Option Rat)) (hr : (r, cols) ∈ out)
    (hn : ∀ x ∈ rowsOf raw r.cycle, x.curr ≤ 0) :
    cols.get? "CV_time" = some none ∧ cols.get? "CV_current" = some none ∧ cols.get? "CV_capacity" = some none := by
  obtain ⟨s, _, _, hm⟩ := summarize_mem h
  obtain ⟨_, e⟩ := hm r cols hr
  have e' : (cycleRows raw r.cycle).filter (fun x => decide (x.curr > 0)) = [] := by
    rw [List.filter_eq_nil_iff]
    intro x hx
    simpa using hn x hx
  rw [e'] at e
  obtain ⟨_, _, _, _, _, _, _, _, _, _, h11, h12, h13⟩ := lookup_cols hasTemp raw r.cycle []
  simp only [← e] at h11 h12 h13
  exact ⟨h11, h12, h13⟩

/-! ### C81: the diagnostic summary -/

theorem mapE_total {α β : Type} (f : α → Except Err β) (g : α → β) (l : List α) (h : ∀ a ∈ l, f a = .ok (g a)) :
    Summary.mapE f l = .ok (l.map g) := by
  induction l with
  | nil => rfl
  | cons a l ih =>
    simp only [Summary.mapE, h a (by simp), ih (fun b hb => h b (by simp [hb])), List.map_cons]

/-- the diagnostic cycles of the data -/
theorem mem_diag {cfg : Diagnostic.Config} {raw : List Raw} {c : Int} :
    c ∈ (groupKeys (raw.map Raw.cycle)).filter (fun c => cfg.allIx.contains c) ↔
      c ∈ cfg.allIx ∧ ∃ r ∈ raw, r.cycle = c := by
  rw [List.mem_filter, mem_groupKeys, List.mem_map, List.contains_iff_mem, and_comm]

theorem diag_eq {d : Dict String (List Int)} (wf : d.WF) {kw} {cfg : Diagnostic.Config}
    (hcfg : Diagnostic.init d kw = .ok cfg) (hasTemp : Bool) (raw : List Raw) :
    ∃ ty : Int → String, (∀ c ∈ cfg.allIx, Listed d c (ty c)) ∧
      summarizeDiagnostic (some cfg) hasTemp raw =
        .ok (((groupKeys (raw.map Raw.cycle)).filter (fun c => cfg.allIx.contains c)).map
          (fun c => ⟨c, ty c, diagCols hasTemp raw c⟩)) := by
  have hl : ∀ c ∈ cfg.allIx, ∃ t, Listed d c t ∧ cfg.typeByIx.get? c = some t := by
    intro c hc
    obtain ⟨t, ht⟩ := (Diagnostic.C02_all d wf kw cfg hcfg c).mp hc
    exact ⟨t, ht, (Diagnostic.C01_lookup d wf kw cfg hcfg c t).mpr ht⟩
  refine ⟨fun c => (cfg.typeByIx.get? c).getD "", ?_, ?_⟩
  · intro c hc
    obtain ⟨t, ht, e⟩ := hl c hc
    change Listed d c ((cfg.typeByIx.get? c).getD "")
    rw [e]; exact ht
  · unfold summarizeDiagnostic
    apply mapE_total
    intro c hc
    obtain ⟨t, ht, e⟩ := hl c (mem_diag.mp hc).1
    simp only [e, Option.getD_some]

/-- C81, rows: with a diagnostic configuration the summary always succeeds and has, in ascending
order, exactly one row for each listed cycle that occurs in the data, with the type the
configuration gives it. -/
theorem C81_rows (d : Dict String (List Int)) (wf : d.WF) (kw) (cfg : Diagnostic.Config)
    (hcfg : Diagnostic.init d kw = .ok cfg) (hasTemp : Bool) (raw : List Raw) :
    ∃ out, summarizeDiagnostic (some cfg) hasTemp raw = .ok out ∧
      (out.map DiagRow.cycle).Pairwise (· < ·) ∧
      (∀ c, c ∈ out.map DiagRow.cycle ↔ (∃ t, Listed d c t) ∧ ∃ r ∈ raw, r.cycle = c) ∧
      ∀ o ∈ out, Listed d o.cycle o.cycleType := by
  obtain ⟨ty, hty, e⟩ := diag_eq wf hcfg hasTemp raw
  refine ⟨_, e, ?_, ?_, ?_⟩
  · rw [List.map_map]
    simp only [Function.comp_def, List.map_id']
    exact (sorted_groupKeys _).sublist List.filter_sublist
  · intro c
    rw [List.map_map]
    simp only [Function.comp_def, List.map_id', mem_diag]
    rw [Diagnostic.C02_all d wf kw cfg hcfg c]
  · intro o ho
    obtain ⟨c, hc, rfl⟩ := List.mem_map.mp ho
    exact hty c (mem_diag.mp hc).1

theorem diag_mem {cfg : Diagnostic.Config} {hasTemp : Bool} {raw : List Raw} {out : List DiagRow}
    (h : summarizeDiagnostic (some cfg) hasTemp raw = .ok out) {o : DiagRow} (ho : o ∈ out) :
    o.cols = diagCols hasTemp raw o.cycle := by
  unfold summarizeDiagnostic at h
  obtain ⟨h1, h2⟩ := Summary.mapE_ok h
  obtain ⟨i, hi, e⟩ := List.getElem_of_mem ho
  have hi' := hi
  rw [h1] at hi'
  obtain ⟨b, hb, e'⟩ := h2 i _ (List.getElem?_eq_getElem hi')
  rw [List.getElem?_eq_getElem hi, e] at e'
  cases e'
  split at hb
  · cases hb
  · cases hb; rfl

/-- the value in a column of a row of the diagnostic summary -/
theorem lookup_diag (b : Bool) (raw : List Raw) (c : Int) :
    let cols := diagCols b raw c
    let g := cycleRows raw c
    let cv := Segments.cvSegment {} ((chargeRows g).map toSeg)
    cols.get? "discharge_capacity" = some (maxN (g.map Raw.dchgCap)) ∧
    cols.get? "charge_capacity" = some (maxN (g.map (fun r => some r.cap))) ∧
    cols.get? "discharge_energy" = some (maxN (g.map Raw.dchgEn)) ∧
    cols.get? "charge_energy" = some (maxN (g.map Raw.chgEn)) ∧
    cols.get? "dc_internal_resistance" = none ∧
    cols.get? "date_time_iso" = some (firstN (g.map (fun r => some r.stamp))) ∧
    cols.get? "temperature_maximum" = (if b then some (maxN (g.map Raw.temp)) else none) ∧
    cols.get? "temperature_average" = (if b then some (meanN (g.map Raw.temp)) else none) ∧
    cols.get? "temperature_minimum" = (if b then some (minN (g.map Raw.temp)) else none) ∧
    cols.get? "coulombic_efficiency" = some (ratio (maxN (g.map Raw.dchgCap)) (maxN (g.map (fun r => some r.cap)))) ∧
    cols.get? "paused" = some (some (paused g)) ∧
    cols.get? "CV_time" = some (Segments.cvTime cv) ∧
    cols.get? "CV_current" = some (Segments.cvCurrent cv) ∧
    cols.get? "CV_capacity" = some (Segments.cvCapacity cv) := by
  cases b <;> exact ⟨rfl, rfl, rfl, rfl, rfl, rfl, rfl, rfl, rfl, rfl, rfl, rfl, rfl, rfl⟩

/-- C81, columns: capacities and energies are the largest recorded in the cycle, the coulombic
efficiency is the quotient of the capacities, the date is that of the first row, the pause is the
longest gap above an hour, and the temperature columns are maximum, mean and minimum. -/
theorem C81_columns (cfg : Diagnostic.Config) (hasTemp : Bool) (raw : List Raw) (out : List DiagRow)
    (h : summarizeDiagnostic (some cfg) hasTemp raw = .ok out) (o : DiagRow) (ho : o ∈ out) :
    (∀ name col, (name, col) ∈ [("discharge_capacity", Raw.dchgCap), ("charge_capacity", fun r => some r.cap),
        ("discharge_energy", Raw.dchgEn), ("charge_energy", Raw.chgEn)] →
      ∃ x, o.cols.get? name = some x ∧ ∀ v, x = some v ↔ IsMax ((rowsOf raw o.cycle).map col) v) ∧
    (∀ d c, o.cols.get? "discharge_capacity" = some (some d) → o.cols.get? "charge_capacity" = some (some c) →
      c ≠ 0 → o.cols.get? "coulombic_efficiency" = some (some (d / c))) ∧
    o.cols.get? "date_time_iso" = some ((rowsOf raw o.cycle).head?.map Raw.stamp) ∧
    (∃ x, o.cols.get? "paused" = some (some x) ∧ IsPause ((rowsOf raw o.cycle).map Raw.stamp) x) ∧
    (hasTemp = true → ∃ x y z, o.cols.get? "temperature_maximum" = some x ∧
      o.cols.get? "temperature_average" = some y ∧ o.cols.get? "temperature_minimum" = some z ∧
      (∀ v, x = some v ↔ IsMax ((rowsOf raw o.cycle).map Raw.temp) v) ∧
      (∀ v, y = some v ↔ IsMean (present ((rowsOf raw o.cycle).map Raw.temp)) v) ∧
      (∀ v, z = some v ↔ IsMin ((rowsOf raw o.cycle).map Raw.temp) v)) := by
  obtain ⟨h1, h2, h3, h4, h5, h6, h7, h8, h9, h10, h11, _⟩ := lookup_diag hasTemp raw o.cycle
  simp only [← diag_mem h ho] at h1 h2 h3 h4 h5 h6 h7 h8 h9 h10 h11
  refine ⟨?_, ?_, ?_, ⟨_, h11, paused_spec _⟩, ?_⟩
  · intro name col hm
    simp only [List.mem_cons, Prod.mk.injEq, List.not_mem_nil, or_false] at hm
    rcases hm with ⟨rfl, rfl⟩ | ⟨rfl, rfl⟩ | ⟨rfl, rfl⟩ | ⟨rfl, rfl⟩
    · exact ⟨_, h1, fun v => Summary.isMax_iff⟩
    · exact ⟨_, h2, fun v => Summary.isMax_iff⟩
    · exact ⟨_, h3, fun v => Summary.isMax_iff⟩
    · exact ⟨_, h4, fun v => Summary.isMax_iff⟩
  · intro d c hd hc hne
    rw [h1] at hd
    rw [h2] at hc
    rw [h10, Option.some.inj hd, Option.some.inj hc]
    simp [ratio, hne]
  · rw [h6, firstN_some]; rfl
  · rintro rfl
    exact ⟨_, _, _, h7, h8, h9, fun v => Summary.isMax_iff, fun v => Proof.Stats.meanN_iff _ v, fun v => isMin_iff⟩

theorem chargeRows_eq {rows : List Raw} {s : Int} (h : lowestStep rows s) :
    chargeRows rows = rows.filter (fun r => decide (r.step = some s)) := by
  obtain ⟨⟨r, hr, hs⟩, hle⟩ := h
  have : minN (rows.map (fun r => r.step.map (fun s : Int => (s : Rat)))) = some (s : Rat) := by
    rw [isMin_iff]
    refine ⟨List.mem_map.mpr ⟨r, hr, by rw [hs]; rfl⟩, ?_⟩
    intro v hv
    obtain ⟨q, hq, e⟩ := List.mem_map.mp hv
    cases hqs : q.step with
    | none => rw [hqs] at e; cases e
    | some s' =>
      rw [hqs] at e
      cases e
      change (s : Rat) ≤ (s' : Rat)
      exact_mod_cast hle q hq s' hqs
  unfold chargeRows minStep
  rw [this]
  apply List.filter_congr
  intro r _
  rw [decide_eq_decide, Rat.num_intCast]

/-- C81 (partial: as in C18).  The CV columns of a diagnostic cycle are those of the
constant-voltage segment of the rows of its lowest step index. -/
theorem C81_cv_partial (cfg : Diagnostic.Config) (hasTemp : Bool) (raw : List Raw) (out : List DiagRow)
    (h : summarizeDiagnostic (some cfg) hasTemp raw = .ok out) (o : DiagRow) (ho : o ∈ out)
    (s : Int) (hl : lowestStep (rowsOf raw o.cycle) s)
    (rows : List Raw) (hrows : rows = (rowsOf raw o.cycle).filter (fun x => decide (x.step = some s)))
    (hs : rows.Pairwise (fun a b => a.time < b.time)) (i : Nat) (hi : FirstAt {} (records rows) (i + 1)) :
    ∃ a b, rows[i]? = some a ∧ rows.getLast? = some b ∧
      o.cols.get? "CV_time" = some (some (b.time - a.time)) ∧ o.cols.get? "CV_current" = some (some b.curr) ∧
      o.cols.get? "CV_capacity" = some (some (b.cap - a.cap)) := by
  obtain ⟨_, _, _, _, _, _, _, _, _, _, _, h12, h13, h14⟩ := lookup_diag hasTemp raw o.cycle
  simp only [← diag_mem h ho] at h12 h13 h14
  have e : chargeRows (cycleRows raw o.cycle) = rows := by
    rw [hrows]; exact chargeRows_eq hl
  rw [e] at h12 h13 h14
  obtain ⟨a, b, ha, hb, g1, g2, g3⟩ := cv_values rows hs i hi
  exact ⟨a, b, ha, hb, by rw [h12, g1], by rw [h13, g2], by rw [h14, g3]⟩

/-- C81 fails for a diagnostic cycle whose lowest step is at constant voltage from the start: the
duration and charge of the constant-voltage segment are reported as 0. -/
theorem C81_cv_from_start_violated (cfg : Diagnostic.Config) (hasTemp : Bool) (raw : List Raw) (out : List DiagRow)
    (h : summarizeDiagnostic (some cfg) hasTemp raw = .ok out) (o : DiagRow) (ho : o ∈ out)
    (s : Int) (hl : lowestStep (rowsOf raw o.cycle) s)
    (rows : List Raw) (hrows : rows = (rowsOf raw o.cycle).filter (fun x => decide (x.step = some s)))
    (hs : rows.Pairwise (fun a b => a.time < b.time)) (hi : FirstAt {} (records rows) 0) :
    o.cols.get? "CV_time" = some (some 0) ∧ o.cols.get? "CV_capacity" = some (some 0) := by
  obtain ⟨_, _, _, _, _, _, _, _, _, _, _, h12, _, h14⟩ := lookup_diag hasTemp raw o.cycle
  simp only [← diag_mem h ho] at h12 h14
  have e : chargeRows (cycleRows raw o.cycle) = rows := by
    rw [hrows]; exact chargeRows_eq hl
  rw [e] at h12 h14
  obtain ⟨g1, g3⟩ := cv_from_start rows hs hi
  exact ⟨by rw [h12, g1], by rw [h14, g3]⟩

/-- C81 fails for a diagnostic cycle whose lowest step is never at constant voltage: the values of
its last two rows are reported. -/
theorem C81_cv_never_violated (cfg : Diagnostic.Config) (hasTemp : Bool) (raw : List Raw) (out : List DiagRow)
    (h : summarizeDiagnostic (some cfg) hasTemp raw = .ok out) (o : DiagRow) (ho : o ∈ out)
    (s : Int) (hl : lowestStep (rowsOf raw o.cycle) s) (pre : List Raw) (y z : Raw)
    (hrows : (rowsOf raw o.cycle).filter (fun x => decide (x.step = some s)) = pre ++ [y, z])
    (hs : (pre ++ [y, z]).Pairwise (fun a b => a.time < b.time)) (hn : Spec.Segments.Never {} (records (pre ++ [y, z]))) :
    o.cols.get? "CV_time" = some (some (z.time - y.time)) ∧ o.cols.get? "CV_current" = some (some z.curr) ∧
      o.cols.get? "CV_capacity" = some (some (z.cap - y.cap)) := by
  obtain ⟨_, _, _, _, _, _, _, _, _, _, _, h12, h13, h14⟩ := lookup_diag hasTemp raw o.cycle
  simp only [← diag_mem h ho] at h12 h13 h14
  have e : chargeRows (cycleRows raw o.cycle) = pre ++ [y, z] := by
    rw [← hrows]; exact chargeRows_eq hl
  rw [e] at h12 h13 h14
  obtain ⟨g1, g2, g3⟩ := cv_never _ pre y z rfl hs hn
  exact ⟨by rw [h12, g1], by rw [h13, g2], by rw [h14, g3]⟩

/-- without a diagnostic configuration the diagnostic summary is refused -/
theorem C81_unconfigured (hasTemp : Bool) (raw : List Raw) :
    summarizeDiagnostic none hasTemp raw = .error .attributeError := rfl

/-! ### C82: the raw data -/

/-- C82 fails: structuring adds a column to the raw data (unless it is there from an earlier
structuring). -/
theorem C82_raw_violated (raw : List Raw) (cols : Cols) (h : cols.get? "time_since_cycle_start" = none) :
    rawAfter raw cols ≠ cols ∧ (rawAfter raw cols).get? "time_since_cycle_start" ≠ none := by
  have e : (rawAfter raw cols).get? "time_since_cycle_start" ≠ none := by
    unfold rawAfter
    rw [Dict.get?_set_self]
    simp
  exact ⟨fun hh => e (by rw [hh]; exact h), e⟩

/-- C82 (partial: all columns but the added one) -/
theorem C82_columns_partial (raw : List Raw) (cols : Cols) (k : String) (hk : k ≠ "time_since_cycle_start") :
    (rawAfter raw cols).get? k = cols.get? k := by
  unfold rawAfter
  rw [Dict.get?_set_ne _ _ hk]

/-! ### a run with two cycles and a diagnostic one -/

def exRow (c s : Int) (t v i q : Rat) (p : Rat) (temp : Rat) : Raw :=
  ⟨c, some s, t, v, i, q, some p, some q, some p, some (t / 1000), some temp, t⟩

def exRaw : List Raw :=
  [exRow 0 1 0 (39/10) 1 0 0 20, exRow 0 1 600 4 1 1 0 30, exRow 0 2 1200 (41/10) 1 2 0 30, exRow 0 2 1800 (41/10) (1/10) 3 0 30,
   exRow 0 3 6000 3 (-1) 3 2 25,
   exRow 1 1 6600 3 (-1) 0 0 20,
   exRow 5 1 7200 (39/10) 1 0 0 20, exRow 5 1 7800 4 1 1 0 20, exRow 5 1 8400 4 (1/2) 2 0 20, exRow 5 2 9000 3 (-1) 2 1 20]

def exDict : Dict String (List Int) := [("reset", [5, 9])]

/-- cycle 0: CV from 600 s on (the record before the first pair at constant voltage), a pause of
4200 s before the discharge, and its temperature integral; cycle 1, incomplete, is dropped -/
example : (match summarize {} (some [5, 9]) true exRaw with
    | .ok out => out.map (fun o => (o.1.cycle, o.2))
    | .error _ => []) = [(0, [("cycle_index", some 0), ("discharge_capacity", some 2), ("charge_capacity", some 3),
      ("discharge_energy", some 2), ("charge_energy", some 3), ("dc_internal_resistance", some 6),
      ("temperature_maximum", some 30), ("temperature_average", some 27), ("temperature_minimum", some 20),
      ("date_time_iso", some 0), ("time_temperature_integrated", some 2775), ("paused", some 4200),
      ("CV_time", some 1200), ("CV_current", some (1/10)), ("CV_capacity", some 2)])] := by
  decide +kernel

example : (match Diagnostic.init exDict [] with
    | .ok cfg => summarizeDiagnostic (some cfg) false exRaw
    | .error e => .error e) = .ok [⟨5, "reset", [("cycle_index", some 5), ("discharge_capacity", some 1),
      ("charge_capacity", some 2), ("discharge_energy", some 1), ("charge_energy", some 2), ("date_time_iso", some 7200),
      ("coulombic_efficiency", some (1/2)), ("paused", some 0), ("CV_time", some 1200), ("CV_current", some (1/2)),
      ("CV_capacity", some 2)]⟩] := by
  decide +kernel

example : lowestStep (rowsOf exRaw 5) 1 := by
  unfold lowestStep; decide +kernel

/-- a charge at constant voltage from its first record on, and one at constant current -/
def exHeld : List Raw :=
  [⟨0, some 1, 0, 4, 1, 0, none, none, none, none, none, 0⟩, ⟨0, some 1, 60, 4, 1/2, 1, none, none, none, none, none, 60⟩,
   ⟨0, some 1, 120, 4, 1/4, 2, none, none, none, none, none, 120⟩]
def exRise : List Raw :=
  [⟨0, some 1, 0, 3, 1, 0, none, none, none, none, none, 0⟩, ⟨0, some 1, 60, 35/10, 1, 1, none, none, none, none, none, 60⟩,
   ⟨0, some 1, 120, 4, 1, 2, none, none, none, none, none, 120⟩]

/-- non-vacuity of the CV violations: 120 s and 2 Ah at constant voltage are reported as 0, and a
charge without constant voltage as 60 s and 1 Ah -/
example : ((summarize {} none false exHeld).map (fun out => out.map (fun o => (o.2.get? "CV_time", o.2.get? "CV_capacity"))) =
      .ok [(some (some 0), some (some 0))]) ∧
    ((summarize {} none false exRise).map (fun out => out.map (fun o => (o.2.get? "CV_time", o.2.get? "CV_capacity"))) =
      .ok [(some (some 60), some (some 1))]) := by
  decide +kernel

example : FirstAt {} (records ((rowsOf exHeld 0).filter (fun x => decide (0 < x.curr)))) 0 := by
  refine ⟨⟨⟨0, 4, 1, 0⟩, ⟨60, 4, 1/2, 1⟩, by decide +kernel, by decide +kernel, ?_⟩, fun j hj => absurd hj (Nat.not_lt_zero _)⟩
  unfold Spec.Segments.Criterion
  decide +kernel

end Beep.Props.SummaryFull
