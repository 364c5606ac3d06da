import Verif.Props.Intracell
/-
C110 to C113: profiles, features, blended electrodes and error metrics of the intracell analysis.
-/
namespace Beep.Props.IntracellFeatures
open Beep Pandas Beep.Intracell Beep.Spec.Intracell
open Beep.Interp (linspace length_linspace getElem?_linspace)
open Beep.Props.Intracell (exists_ok)

/-! ### C110: the profiles that are fitted -/

/-- the row belongs to the charge of a cycle: capacity `q` above 0 and voltage `v` below 4.2 V -/
def Charge (type : String) (cycle : Int) (r : Row) (q v : Rat) : Prop :=
  r.cycleType = type ∧ r.cycle = cycle ∧ r.stepType = 0 ∧ r.chg = some q ∧ 0 < q ∧ r.volt = some v ∧ v < 42 / 10

/-- the charge of a cycle has a row with capacity `q` and voltage `v` -/
def Charged (type : String) (cycle : Int) (rows : List Row) (q v : Rat) : Prop := ∃ r ∈ rows, Charge type cycle r q v

/-- no two rows of the charge have the same capacity -/
def Single (type : String) (cycle : Int) (rows : List Row) : Prop :=
  rows.Pairwise (fun r s => ∀ q v w, Charge type cycle r q v → ¬ Charge type cycle s q w)

theorem mem_candidateRows {type : String} {rows : List Row} {cycle : Int} {r : Row} :
    r ∈ candidateRows type 0 rows cycle ↔ r ∈ rows ∧ ∃ q v, Charge type cycle r q v := by
  unfold candidateRows
  rw [List.mem_filter]
  simp only [Bool.and_eq_true, decide_eq_true_eq, capacity, if_true, Option.any_eq_true, upperV]
  constructor
  · rintro ⟨hr, ⟨⟨⟨⟨h1, h2⟩, h3⟩, v, h4, h5⟩, q, h6, h7⟩⟩
    exact ⟨hr, q, v, h1, h2, h3, h6, h7, h4, of_decide_eq_true h5⟩
  · rintro ⟨hr, q, v, h1, h2, h3, h6, h7, h4, h5⟩
    exact ⟨hr, ⟨⟨⟨⟨h1, h2⟩, h3⟩, v, h4, decide_eq_true h5⟩, q, h6, by simpa using h7⟩⟩

theorem mem_points {type : String} {rows : List Row} {cycle : Int} {p : Rat × Option Rat} :
    p ∈ points Row.chg (candidateRows type 0 rows cycle) ↔ ∃ v, p.2 = some v ∧ Charged type cycle rows p.1 v := by
  unfold points
  rw [List.mem_filterMap]
  constructor
  · rintro ⟨r, hr, he⟩
    obtain ⟨hr', q, v, hc⟩ := mem_candidateRows.1 hr
    obtain ⟨q', hq', rfl⟩ := Option.map_eq_some_iff.1 he
    have : q' = q := by rw [hc.2.2.2.1] at hq'; exact (Option.some.inj hq').symm
    subst this
    exact ⟨v, hc.2.2.2.2.2.1, r, hr', hc⟩
  · rintro ⟨v, hv, r, hr, hc⟩
    refine ⟨r, mem_candidateRows.2 ⟨hr, _, _, hc⟩, ?_⟩
    rw [hc.2.2.2.1, hc.2.2.2.2.2.1]
    simp only [Option.map_some]
    exact congrArg some (Prod.ext rfl hv.symm)

theorem points_distinct {type : String} {rows : List Row} {cycle : Int} (h : Single type cycle rows) :
    Distinct (points Row.chg (candidateRows type 0 rows cycle)) := by
  unfold Distinct List.Nodup
  rw [List.pairwise_map]
  unfold points
  rw [List.pairwise_filterMap]
  have h' : (candidateRows type 0 rows cycle).Pairwise _ := h.sublist List.filter_sublist
  refine h'.imp_of_mem ?_
  intro r s hr hs hrs b hb b' hb' he
  obtain ⟨_, q, v, hc⟩ := mem_candidateRows.1 hr
  obtain ⟨_, q', v', hc'⟩ := mem_candidateRows.1 hs
  rw [hc.2.2.2.1] at hb; rw [hc'.2.2.2.1] at hb'
  simp only [Option.map_some, Option.some.injEq] at hb hb'
  rw [← hb, ← hb'] at he
  simp only at he
  subst he
  exact hrs q v v' hc hc'

theorem fill_ok {pts : Curve} (hd : Distinct pts) {lo hi : Rat} (hr : range pts = some (lo, hi)) {below above x : Rat}
    (hx : x ≤ hi) : ((∀ p ∈ pts, x < p.1) → interpFill below above pts x = some below) ∧
      ((∃ p ∈ pts, p.1 ≤ x) → OnCurve pts x (interpFill below above pts x)) := by
  have hext := (range_iff ..).1 hr
  have hlohi : minN (pts.map (fun p => some p.1)) = some lo ∧ maxN (pts.map (fun p => some p.1)) = some hi := by
    unfold range at hr
    cases h1 : minN (pts.map (fun p => some p.1)) with
    | none => rw [h1] at hr; simp at hr
    | some a => cases h2 : maxN (pts.map (fun p => some p.1)) with
      | none => rw [h1, h2] at hr; simp at hr
      | some b =>
        rw [h1, h2] at hr
        simp only [Option.some.injEq, Prod.mk.injEq] at hr
        exact ⟨by rw [hr.1], by rw [hr.2]⟩
  unfold interpFill
  rw [hlohi.1, hlohi.2]
  simp only
  constructor
  · intro h
    obtain ⟨p, hp, rfl⟩ := hext.1
    rw [if_pos (h p hp)]
  · rintro ⟨p, hp, hpx⟩
    rw [if_neg (not_lt.2 (le_trans (hext.2.2 p hp).1 hpx)), if_neg (not_lt.2 hx)]
    exact interp_onCurve pts hd x

theorem mem_linspace {a b x : Rat} (h : x ∈ linspace a b 1001) : ∃ k : Nat, k < 1001 ∧ x = a + (k : Rat) * (b - a) / 1000 := by
  obtain ⟨k, hk⟩ := List.getElem?_of_mem h
  have hlt : k < 1001 := by
    have := (List.getElem?_eq_some_iff.1 hk).1
    rwa [length_linspace] at this
  refine ⟨k, hlt, ?_⟩
  rw [(even_linspace a b).2 k hlt] at hk
  exact (Option.some.inj hk).symm

theorem linspace_le {a b x : Rat} (hab : a ≤ b) (h : x ∈ linspace a b 1001) : a ≤ x ∧ x ≤ b := by
  obtain ⟨k, hk, rfl⟩ := mem_linspace h
  have h1 : (k : Rat) ≤ 1000 := by exact_mod_cast (by omega : k ≤ 1000)
  have h0 : (0 : Rat) ≤ k := by positivity
  have : 0 ≤ (k : Rat) * (b - a) := mul_nonneg h0 (by linarith)
  have : (k : Rat) * (b - a) ≤ 1000 * (b - a) := mul_le_mul_of_nonneg_right h1 (by linarith)
  constructor <;> linarith

/-- version 2, for the charge: the profile to be fitted has 1001 evenly spaced capacities from 0 to the largest capacity of
the charge of the cycle below 4.2 V; its voltages are on the measured curve, and 2.7 V below the first measured capacity -/
theorem C110_candidate_partial (type : String) (rows : List Row) (cycle : Int) (prof : Curve)
    (hs : Single type cycle rows) (h : candidate type 0 rows cycle = .ok prof) :
    ∃ top, (∃ v, Charged type cycle rows top v) ∧ (∀ q v, Charged type cycle rows q v → q ≤ top) ∧
      Even (prof.map Prod.fst) 0 top ∧
      ∀ q y, (q, y) ∈ prof →
        ((∀ q' v, Charged type cycle rows q' v → q < q') → y = some (27 / 10)) ∧
        ((∃ q' v, Charged type cycle rows q' v ∧ q' ≤ q) →
          ∀ curve : Curve, (∀ p, p ∈ curve ↔ ∃ v, p.2 = some v ∧ Charged type cycle rows p.1 v) → OnCurve curve q y) := by
  unfold candidate at h
  simp only at h
  cases hr : range (points Row.chg (candidateRows type 0 rows cycle)) with
  | none => rw [hr] at h; cases h
  | some r =>
    obtain ⟨lo, hi⟩ := r
    rw [hr] at h
    simp only [Except.ok.injEq] at h
    obtain ⟨hlo, ⟨p, hp, hpe⟩, hall⟩ := (range_iff ..).1 hr
    obtain ⟨v, hv, hc⟩ := mem_points.1 hp
    have hc' := hc
    rw [hpe] at hc
    have hpos : (0 : Rat) ≤ hi := by
      obtain ⟨r, _, hr'⟩ := hc
      exact le_of_lt hr'.2.2.2.2.1
    refine ⟨hi, ⟨v, hc⟩, ?_, ?_, ?_⟩
    · intro q w hq
      exact (hall (q, some w) (mem_points.2 ⟨w, rfl, hq⟩)).2
    · rw [← h, List.map_map]
      have : (Prod.fst ∘ fun q : Rat => (q, interpFill lowerV upperV (points Row.chg (candidateRows type 0 rows cycle)) q)) = id := rfl
      rw [this, List.map_id]
      exact even_linspace _ _
    · intro q y hq
      rw [← h] at hq
      obtain ⟨q', hq', he⟩ := List.mem_map.1 hq
      obtain ⟨rfl, rfl⟩ := Prod.mk.inj he
      have hfill := fill_ok (points_distinct hs) hr (below := lowerV) (above := upperV) (linspace_le hpos hq').2
      refine ⟨fun hb => hfill.1 (fun p hp => ?_), fun ⟨a, w, ha, hle⟩ curve hcurve => ?_⟩
      · obtain ⟨w, _, hw⟩ := mem_points.1 hp
        exact hb _ _ hw
      · refine onCurve_mem_iff (fun p => ?_) q' _ (hfill.2 ⟨(a, some w), mem_points.2 ⟨w, rfl, ha⟩, hle⟩)
        rw [mem_points, hcurve]

/-- version 2: the profile can be formed exactly if the charge has a row -/
theorem C110_candidate_refused (type : String) (rows : List Row) (cycle : Int) :
    (∃ prof, candidate type 0 rows cycle = .ok prof) ↔ ∃ q v, Charged type cycle rows q v := by
  unfold candidate
  simp only
  cases hr : range (points Row.chg (candidateRows type 0 rows cycle)) with
  | none =>
    rw [range_none] at hr
    refine ⟨fun ⟨_, h⟩ => (by cases h), fun ⟨q, v, hc⟩ => ?_⟩
    have : (q, some v) ∈ points Row.chg (candidateRows type 0 rows cycle) := mem_points.2 ⟨v, rfl, hc⟩
    rw [hr] at this; cases this
  | some r =>
    obtain ⟨⟨p, hp, _⟩, _⟩ := (range_iff _ r.1 r.2).1 hr
    obtain ⟨v, _, hc⟩ := mem_points.1 hp
    exact ⟨fun _ => ⟨_, v, hc⟩, fun _ => ⟨_, rfl⟩⟩

/-- a charge and a discharge of one cycle -/
def sampleRows : List Row :=
  [⟨5, "rpt_0.2C", 0, some 3, some 1, some 0⟩, ⟨5, "rpt_0.2C", 0, some (35 / 10), some 2, some 0⟩,
   ⟨5, "rpt_0.2C", 0, some (42 / 10), some 3, some 0⟩, ⟨5, "rpt_0.2C", 1, some 4, some 3, some 1⟩,
   ⟨5, "rpt_0.2C", 1, some (31 / 10), some 3, some 2⟩]

example : Charged "rpt_0.2C" 5 sampleRows 1 3 ∧ Charged "rpt_0.2C" 5 sampleRows 2 (35 / 10) := by
  refine ⟨⟨⟨5, "rpt_0.2C", 0, some 3, some 1, some 0⟩, ?_, ?_⟩, ⟨⟨5, "rpt_0.2C", 0, some (35 / 10), some 2, some 0⟩, ?_, ?_⟩⟩
  · decide +kernel
  · unfold Charge; decide +kernel
  · decide +kernel
  · unfold Charge; decide +kernel

example : Single "rpt_0.2C" 5 sampleRows := by
  unfold Single sampleRows
  simp only [List.pairwise_cons, List.mem_cons, List.not_mem_nil, or_false, forall_eq_or_imp, forall_eq, Charge]
  norm_num
  exact ⟨⟨fun _ _ _ _ _ _ _ _ _ _ => by linarith, fun _ _ _ _ _ _ _ _ _ _ => by linarith⟩, fun _ _ _ _ _ _ _ _ _ _ => by linarith⟩

/-- version 2, any step type, in particular the discharge (1): the discharge rows of the data play no role -/
theorem C110_step_violated (type : String) (stepType : Nat) (rows : List Row) (cycle : Int) :
    candidate type stepType rows cycle = candidate type stepType (rows.filter (fun r => decide (r.stepType = 0))) cycle := by
  have : candidateRows type stepType (rows.filter (fun r => decide (r.stepType = 0))) cycle
      = candidateRows type stepType rows cycle := by
    unfold candidateRows
    rw [List.filter_filter]
    refine List.filter_congr ?_
    intro r _
    cases decide (r.stepType = 0) <;> simp
  unfold candidate
  rw [this]

/-- so the profile of a discharge cannot be formed from a cycle that only has a discharge -/
example : candidate "rpt_0.2C" 1 (sampleRows.filter (fun r => decide (r.stepType = 1))) 5 = .error .valueError := by
  decide +kernel

/-- the row belongs to the charge (step type 0) or discharge of a cycle: capacity `q`, voltage `v` strictly between 2.7 and
4.2 V -/
def Initial (type : String) (cycle : Int) (stepType : Nat) (r : Row) (q v : Rat) : Prop :=
  r.cycleType = type ∧ r.cycle = cycle ∧ r.stepType = stepType ∧ (if stepType = 0 then r.chg else r.dchg) = some q ∧
    r.volt = some v ∧ 27 / 10 < v ∧ v < 42 / 10

theorem mem_initialRows {type : String} {stepType : Nat} {rows : List Row} {cycle : Int} {r : Row} :
    r ∈ initialRows type stepType rows cycle ↔ r ∈ rows ∧ r.cycleType = type ∧ r.cycle = cycle ∧ r.stepType = stepType ∧
      ∃ v, r.volt = some v ∧ 27 / 10 < v ∧ v < 42 / 10 := by
  unfold initialRows
  rw [List.mem_filter]
  simp only [Bool.and_eq_true, decide_eq_true_eq, Option.any_eq_true, upperV, lowerV]
  constructor
  · rintro ⟨hr, ⟨⟨⟨⟨h1, h2⟩, h3⟩, v, h4, h5⟩, w, h6, h7⟩⟩
    rw [h4] at h6
    cases h6
    exact ⟨hr, h1, h2, h3, v, h4, of_decide_eq_true h7, of_decide_eq_true h5⟩
  · rintro ⟨hr, h1, h2, h3, v, h4, h5, h6⟩
    exact ⟨hr, ⟨⟨⟨⟨h1, h2⟩, h3⟩, v, h4, decide_eq_true h6⟩, v, h4, decide_eq_true h5⟩⟩

theorem mem_initial {type : String} {stepType : Nat} {rows : List Row} {cycle : Int} {p : Rat × Option Rat} :
    p ∈ points (capacity stepType) (initialRows type stepType rows cycle) ↔
      ∃ v, p.2 = some v ∧ ∃ r ∈ rows, Initial type cycle stepType r p.1 v := by
  unfold points
  rw [List.mem_filterMap]
  constructor
  · rintro ⟨r, hr, he⟩
    obtain ⟨hr', h1, h2, h3, v, h4, h5, h6⟩ := mem_initialRows.1 hr
    obtain ⟨q, hq, rfl⟩ := Option.map_eq_some_iff.1 he
    exact ⟨v, h4, r, hr', h1, h2, h3, hq, h4, h5, h6⟩
  · rintro ⟨v, hv, r, hr, h1, h2, h3, hq, h4, h5, h6⟩
    refine ⟨r, mem_initialRows.2 ⟨hr, h1, h2, h3, v, h4, h5, h6⟩, ?_⟩
    rw [show capacity stepType r = some p.1 from hq, h4]
    exact congrArg some (Prod.ext rfl hv.symm)

theorem initial_distinct {type : String} {stepType : Nat} {rows : List Row} {cycle : Int}
    (h : rows.Pairwise (fun r s => ∀ q v w, Initial type cycle stepType r q v → ¬ Initial type cycle stepType s q w)) :
    Distinct (points (capacity stepType) (initialRows type stepType rows cycle)) := by
  unfold Distinct List.Nodup
  rw [List.pairwise_map]
  unfold points
  rw [List.pairwise_filterMap]
  have h' : (initialRows type stepType rows cycle).Pairwise _ := h.sublist List.filter_sublist
  refine h'.imp_of_mem ?_
  intro r s hr hs hrs b hb b' hb' he
  obtain ⟨_, h1, h2, h3, v, h4, h5, h6⟩ := mem_initialRows.1 hr
  obtain ⟨_, g1, g2, g3, w, g4, g5, g6⟩ := mem_initialRows.1 hs
  obtain ⟨q, hq, rfl⟩ := Option.map_eq_some_iff.1 hb
  obtain ⟨q', hq', rfl⟩ := Option.map_eq_some_iff.1 hb'
  simp only at he
  subst he
  exact hrs q v w ⟨h1, h2, h3, hq, h4, h5, h6⟩ ⟨g1, g2, g3, hq', g4, g5, g6⟩

/-- version 1: the first profile is that of the first cycle of the type in the summary, for the step type, with the
capacities between 2.7 and 4.2 V scaled to states of charge from 0 to 100 and the voltages interpolated on 1001 of them -/
theorem C110_initial_partial (type : String) (stepType : Nat) (summary : List (Int × String)) (rows : List Row) (prof : Curve)
    (pre post : List (Int × String)) (cycle : Int) (hsum : summary = pre ++ (cycle, type) :: post)
    (hpre : ∀ s ∈ pre, s.2 ≠ type)
    (hd : rows.Pairwise (fun r s => ∀ q v w, Initial type cycle stepType r q v → ¬ Initial type cycle stepType s q w))
    (h : initial type stepType summary rows = .ok prof) :
    Even (prof.map Prod.fst) 0 100 ∧
    ∃ lo hi, lo < hi ∧ (∃ r ∈ rows, ∃ v, Initial type cycle stepType r lo v) ∧
      (∃ r ∈ rows, ∃ v, Initial type cycle stepType r hi v) ∧
      (∀ r ∈ rows, ∀ q v, Initial type cycle stepType r q v → lo ≤ q ∧ q ≤ hi) ∧
      ∀ curve : Curve, (∀ p, p ∈ curve ↔ ∃ r ∈ rows, ∃ q v, Initial type cycle stepType r q v ∧
          p = ((q - lo) / (hi - lo) * 100, some v)) →
        ∀ s y, (s, y) ∈ prof → OnCurve curve s y := by
  have hfirst : (summary.filter (fun s => decide (s.2 = type))).head? = some (cycle, type) := by
    rw [hsum, List.filter_append, List.filter_eq_nil_iff.2 (by intro a ha; simpa using hpre a ha)]
    simp
  unfold initial at h
  rw [hfirst] at h
  simp only at h
  unfold normalise at h
  cases hr : range (points (capacity stepType) (initialRows type stepType rows cycle)) with
  | none => rw [hr] at h; cases h
  | some r =>
    obtain ⟨lo, hi⟩ := r
    rw [hr] at h
    simp only at h
    by_cases hw : hi = lo
    · rw [if_pos hw] at h; cases h
    · rw [if_neg hw] at h
      simp only [Except.ok.injEq] at h
      obtain ⟨⟨p, hp, hpe⟩, ⟨p', hp', hpe'⟩, hall⟩ := (range_iff ..).1 hr
      have hlt : lo < hi := lt_of_le_of_ne (by rw [← hpe]; exact (hall p hp).2) (Ne.symm hw)
      constructor
      · rw [← h, Props.Intracell.map_fst_grid]
        exact even_linspace _ _
      · obtain ⟨v, _, r, hrm, hi1⟩ := mem_initial.1 hp
        obtain ⟨v', _, r', hrm', hi2⟩ := mem_initial.1 hp'
        rw [hpe] at hi1; rw [hpe'] at hi2
        refine ⟨lo, hi, hlt, ⟨r, hrm, v, hi1⟩, ⟨r', hrm', v', hi2⟩, ?_, ?_⟩
        · intro r hr q v hq
          exact hall (q, some v) (mem_initial.2 ⟨v, rfl, r, hr, hq⟩)
        · intro curve hcurve s y hsy
          rw [← h] at hsy
          obtain ⟨s', hs', he⟩ := List.mem_map.1 hsy
          obtain ⟨rfl, rfl⟩ := Prod.mk.inj he
          refine onCurve_mem_iff (fun p => ?_) s' _ (interp_onCurve _ ?_ s')
          · rw [hcurve, List.mem_map]
            constructor
            · rintro ⟨a, ha, rfl⟩
              obtain ⟨v, hv, r, hr, hq⟩ := mem_initial.1 ha
              exact ⟨r, hr, a.1, v, hq, by rw [hv]⟩
            · rintro ⟨r, hr, q, v, hq, rfl⟩
              exact ⟨(q, some v), mem_initial.2 ⟨v, rfl, r, hr, hq⟩, rfl⟩
          · have hne : hi - lo ≠ 0 := by intro h0; exact hw (by linarith)
            have := initial_distinct hd
            unfold Distinct at *
            rw [List.map_map]
            have he : (Prod.fst ∘ fun p : Rat × Option Rat => ((p.1 - lo) / (hi - lo) * 100, p.2))
                = (fun x => (x - lo) / (hi - lo) * 100) ∘ Prod.fst := rfl
            rw [he, ← List.map_map]
            refine this.map ?_
            intro a b hab
            simp only at hab
            have h1 : (a - lo) / (hi - lo) = (b - lo) / (hi - lo) := by linarith
            have h2 := (div_left_inj' hne).1 h1
            linarith

/-- version 1, any step type, in particular the discharge (1): the first profile of the analysis is made of charge rows -/
theorem C110_initial_step_violated (type : String) (stepType : Nat) (summary : List (Int × String)) (rows : List Row) :
    wrapperInitial type stepType summary rows =
      wrapperInitial type stepType summary (rows.filter (fun r => decide (r.stepType = 0))) := by
  have : ∀ cycle, initialRows type 0 (rows.filter (fun r => decide (r.stepType = 0))) cycle = initialRows type 0 rows cycle := by
    intro cycle
    unfold initialRows
    rw [List.filter_filter]
    refine List.filter_congr ?_
    intro r _
    cases decide (r.stepType = 0) <;> simp
  unfold wrapperInitial initial
  simp only [this]

example : ∃ prof, initial "rpt_0.2C" 1 [(2, "reset"), (5, "rpt_0.2C"), (9, "rpt_0.2C")] sampleRows = .ok prof := by
  obtain ⟨prof, h, _⟩ := exists_ok (initial "rpt_0.2C" 1 [(2, "reset"), (5, "rpt_0.2C"), (9, "rpt_0.2C")] sampleRows)
    (fun _ => true) (by decide +kernel)
  exact ⟨prof, h⟩

/-- version 1: the profile of a later cycle, for a first profile with capacities from `lo` to `hi`: the places are evenly
spaced from 0 to the largest state of charge of the cycle relative to the first one, and the voltages at these states of
charge are on the measured curve, 2.7 V below it -/
theorem C110_candidate_v1_partial (type : String) (rows : List Row) (lo hi top : Rat) (cycle : Int) (prof : Curve)
    (hlt : lo < hi) (htop : 0 < top) (hs : Single type cycle rows) (hc : ∃ q v, Charged type cycle rows q v ∧ lo ≤ q)
    (h : candidateV1 type rows lo hi top cycle = .ok prof) :
    ∃ q v, Charged type cycle rows q v ∧ (∀ q' v', Charged type cycle rows q' v' → q' ≤ q) ∧
      Even (prof.map Prod.fst) 0 ((q - lo) / (hi - lo) * 100 / top * 100) ∧
      ∀ curve : Curve, (∀ p, p ∈ curve ↔ ∃ q' v', Charged type cycle rows q' v' ∧
          p = ((q' - lo) / (hi - lo) * 100, some v')) →
        ∀ x y, (x, y) ∈ prof →
          ((∀ p ∈ curve, x * top / 100 < p.1) → y = some (27 / 10)) ∧
          ((∃ p ∈ curve, p.1 ≤ x * top / 100) → OnCurve curve (x * top / 100) y) := by
  have hw : 0 < hi - lo := by linarith
  have hmono : ∀ a b : Rat, (a - lo) / (hi - lo) * 100 ≤ (b - lo) / (hi - lo) * 100 ↔ a ≤ b := by
    intro a b
    constructor
    · intro h1
      have : (a - lo) / (hi - lo) ≤ (b - lo) / (hi - lo) := by linarith
      rw [div_le_div_iff_of_pos_right hw] at this; linarith
    · intro h1
      have : (a - lo) / (hi - lo) ≤ (b - lo) / (hi - lo) := by rw [div_le_div_iff_of_pos_right hw]; linarith
      linarith
  unfold candidateV1 at h
  simp only at h
  generalize hpts : (points Row.chg (candidateRows type 0 rows cycle)).map
    (fun p => ((p.1 - lo) / (hi - lo) * 100, p.2)) = pts at h
  have hmem : ∀ p, p ∈ pts ↔ ∃ q' v', Charged type cycle rows q' v' ∧ p = ((q' - lo) / (hi - lo) * 100, some v') := by
    intro p
    rw [← hpts, List.mem_map]
    constructor
    · rintro ⟨a, ha, rfl⟩
      obtain ⟨v, hv, hq⟩ := mem_points.1 ha
      exact ⟨a.1, v, hq, by rw [hv]⟩
    · rintro ⟨q, v, hq, rfl⟩
      exact ⟨(q, some v), mem_points.2 ⟨v, rfl, hq⟩, rfl⟩
  have hdist : Distinct pts := by
    have := points_distinct hs
    unfold Distinct at *
    rw [← hpts, List.map_map]
    have he : (Prod.fst ∘ fun p : Rat × Option Rat => ((p.1 - lo) / (hi - lo) * 100, p.2))
        = (fun x => (x - lo) / (hi - lo) * 100) ∘ Prod.fst := rfl
    rw [he, ← List.map_map]
    exact this.map (fun a b hab => le_antisymm ((hmono a b).1 (le_of_eq hab)) ((hmono b a).1 (le_of_eq hab.symm)))
  cases hr : range pts with
  | none => rw [hr] at h; cases h
  | some r =>
    obtain ⟨a, m⟩ := r
    rw [hr] at h
    simp only [Except.ok.injEq] at h
    obtain ⟨_, ⟨p, hp, hpe⟩, hall⟩ := (range_iff ..).1 hr
    obtain ⟨q, v, hq, rfl⟩ := (hmem p).1 hp
    simp only at hpe
    have hmax : ∀ q' v', Charged type cycle rows q' v' → q' ≤ q := by
      intro q' v' h'
      have := (hall _ ((hmem _).2 ⟨q', v', h', rfl⟩)).2
      simp only at this
      rw [← hpe, hmono] at this
      exact this
    have hm : 0 ≤ m := by
      obtain ⟨q', v', h', hle⟩ := hc
      have h1 : lo ≤ q := le_trans hle (hmax q' v' h')
      rw [← hpe]
      have : 0 ≤ (q - lo) / (hi - lo) := div_nonneg (by linarith) (le_of_lt hw)
      linarith
    refine ⟨q, v, hq, hmax, ?_, ?_⟩
    · rw [← h, List.map_map]
      constructor
      · rw [List.length_map, length_linspace]
      · intro k hk
        rw [List.getElem?_map, (even_linspace 0 m).2 k hk, hpe]
        simp only [Option.map_some, Function.comp_apply]
        have : ∀ a b c d : Rat, (0 + a * (b - 0) / 1000) / c * d = 0 + a * (b / c * d - 0) / 1000 := by intros; ring
        rw [this]
    · intro curve hcurve x y hxy
      rw [← h] at hxy
      obtain ⟨s, hs', he⟩ := List.mem_map.1 hxy
      obtain ⟨hx, rfl⟩ := Prod.mk.inj he
      have hsx : x * top / 100 = s := by rw [← hx]; field_simp
      rw [hsx]
      have hsame : ∀ p, p ∈ pts ↔ p ∈ curve := fun p => by rw [hmem, hcurve]
      have hfill := fill_ok hdist hr (below := lowerV) (above := upperV) (linspace_le hm hs').2
      refine ⟨fun hb => hfill.1 (fun p hp => hb p ((hsame p).1 hp)), fun ⟨p, hp, hle⟩ => ?_⟩
      exact onCurve_mem_iff hsame s _ (hfill.2 ⟨p, (hsame p).2 hp, hle⟩)

example : ∃ prof, candidateV1 "rpt_0.2C" sampleRows 0 2 100 5 = .ok prof := by
  obtain ⟨prof, h, _⟩ := exists_ok (candidateV1 "rpt_0.2C" sampleRows 0 2 100 5) (fun _ => true) (by decide +kernel)
  exact ⟨prof, h⟩

/-! ### C111: the features -/

/-- the diagnostic of the type has a discharge capacity above the threshold -/
def Usable (threshold : Rat) (type : String) (r : SRow) : Prop := r.cycleType = type ∧ ∃ q, r.dchg = some q ∧ threshold < q

theorem usable_filter {threshold : Rat} {type : String} {r : SRow} :
    (decide (r.cycleType = type) && r.dchg.any (fun q => decide (threshold < q))) = true ↔ Usable threshold type r := by
  unfold Usable
  rw [Bool.and_eq_true, decide_eq_true_eq, Option.any_eq_true]
  simp only [decide_eq_true_eq]

instance (threshold : Rat) (type : String) (r : SRow) : Decidable (Usable threshold type r) :=
  decidable_of_iff _ usable_filter

/-- the cycles of the usable rows in their order -/
def usableCycles (threshold : Rat) (type : String) (s : List SRow) : List Int :=
  (s.filter (fun r => decide (Usable threshold type r))).map SRow.cycle

theorem cyclesOf_ok (threshold : Rat) (type : String) (s : List SRow) :
    cyclesOf threshold type s = usableCycles threshold type s := by
  unfold cyclesOf usableCycles
  congr 1
  refine List.filter_congr ?_
  intro r _
  rw [Bool.eq_iff_iff, usable_filter, decide_eq_true_iff]

theorem usable_nodup {threshold : Rat} {type : String} {s : List SRow} (h : (s.map SRow.cycle).Nodup) :
    (usableCycles threshold type s).Nodup := h.sublist (List.filter_sublist.map SRow.cycle)

theorem fits_ok (fit : Int → Except Err (List (Option Rat))) (cs : List Int) (d out : Dict Int (List (Option Rat)))
    (hnd : (d.map Prod.fst ++ cs).Nodup) (h : fits fit cs d = .ok out) :
    ∃ rows : List (List (Option Rat)), out = d ++ cs.zip rows ∧ rows.length = cs.length ∧
      ∀ (k : Nat) (c : Int), cs[k]? = some c → ∃ v, rows[k]? = some v ∧ fit c = .ok v := by
  induction cs generalizing d with
  | nil =>
    simp only [fits, Except.ok.injEq] at h
    exact ⟨[], by simp [h], rfl, by intro k c h; simp at h⟩
  | cons c cs ih =>
    unfold fits at h
    cases hf : fit c with
    | error e => rw [hf] at h; cases h
    | ok v =>
      rw [hf] at h
      simp only at h
      have hc : c ∉ d.map Prod.fst := by
        intro hm
        have := List.nodup_append.1 hnd
        exact this.2.2 c hm c (by simp) rfl
      have hset : Dict.set d c v = d ++ [(c, v)] := by
        have hno : ∀ p ∈ d, p.1 ≠ c := fun p hp he => hc (List.mem_map.2 ⟨p, hp, he⟩)
        clear h hnd hc ih hf
        induction d with
        | nil => rfl
        | cons p d ihd =>
          have h1 := hno p (by simp)
          have h2 := ihd (fun q hq => hno q (by simp [hq]))
          obtain ⟨a, b⟩ := p
          simp only [Dict.set, List.cons_append]
          simp only at h1
          rw [if_neg h1, h2]
      rw [hset] at h
      obtain ⟨rows, hout, hlen, hall⟩ := ih (d ++ [(c, v)]) (by simpa [List.append_assoc] using hnd) h
      refine ⟨v :: rows, by rw [hout]; simp, by simp [hlen], ?_⟩
      intro k x hk
      cases k with
      | zero => simp at hk; subst hk; exact ⟨v, rfl, hf⟩
      | succ k => exact hall k x (by simpa using hk)

theorem fits_error (fit : Int → Except Err (List (Option Rat))) (cs : List Int) (d : Dict Int (List (Option Rat))) :
    (∃ out, fits fit cs d = .ok out) ↔ ∀ c ∈ cs, ∃ v, fit c = .ok v := by
  induction cs generalizing d with
  | nil => simp [fits]
  | cons c cs ih =>
    unfold fits
    cases hf : fit c with
    | error e => simp only [List.mem_cons, forall_eq_or_imp, hf]; simp
    | ok v => simp only [ih, List.mem_cons, forall_eq_or_imp, hf]; simp

theorem zip_get {α β : Type} {cs : List α} {rows : List β} {k : Nat} {c : α} {v : β} (h1 : cs[k]? = some c)
    (h2 : rows[k]? = some v) : (cs.zip rows)[k]? = some (c, v) := by
  rw [List.getElem?_zip_eq_some]; exact ⟨h1, h2⟩

/-- a row of features for each usable diagnostic of the type, in their order, with the values of the fit of this cycle
under the names (any names, in particular those of versions 1 and 2) -/
theorem C111_rows (names : List String) (threshold : Rat) (fit : Int → Except Err (List (Option Rat))) (type : String)
    (s : List SRow) (d : Dict Int (List (String × Option Rat))) (hnd : (s.map SRow.cycle).Nodup)
    (h : cycleFeatures names threshold fit type s = .ok d) :
    d.map Prod.fst = usableCycles threshold type s ∧ ∀ (k : Nat) (c : Int), (usableCycles threshold type s)[k]? = some c →
      ∃ v, fit c = .ok v ∧ v.length = names.length ∧ d[k]? = some (c, names.zip v) := by
  unfold cycleFeatures at h
  rw [cyclesOf_ok] at h
  cases hf : fits fit (usableCycles threshold type s) [] with
  | error e => rw [hf] at h; cases h
  | ok out =>
    rw [hf] at h
    simp only at h
    obtain ⟨rows, hout, hlen, hall⟩ := fits_ok fit _ [] out (by simpa using usable_nodup hnd) hf
    rw [List.nil_append] at hout
    cases hl : out.all (fun p => decide (p.2.length = names.length)) with
    | false => rw [hl] at h; cases h
    | true =>
      rw [hl, if_pos rfl] at h
      simp only [Except.ok.injEq] at h
      constructor
      · rw [← h, hout, List.map_map]
        have : (Prod.fst ∘ fun p : Int × List (Option Rat) => (p.1, names.zip p.2)) = Prod.fst := rfl
        rw [this, List.map_fst_zip (by omega)]
      · intro k c hk
        obtain ⟨v, hv, hfit⟩ := hall k c hk
        have hz := zip_get hk hv
        rw [← hout] at hz
        refine ⟨v, hfit, ?_, ?_⟩
        · have := List.all_eq_true.1 hl _ (List.mem_of_getElem? hz)
          exact of_decide_eq_true this
        · rw [← h, List.getElem?_map, hz]
          rfl

/-- the features are refused exactly if the fit of a usable diagnostic fails or has a number of values that differs from
the number of names -/
theorem C111_refused (names : List String) (threshold : Rat) (fit : Int → Except Err (List (Option Rat))) (type : String)
    (s : List SRow) (hnd : (s.map SRow.cycle).Nodup) :
    (∃ d, cycleFeatures names threshold fit type s = .ok d) ↔
      ∀ c ∈ usableCycles threshold type s, ∃ v, fit c = .ok v ∧ v.length = names.length := by
  constructor
  · rintro ⟨d, h⟩ c hc
    obtain ⟨k, hk⟩ := List.getElem?_of_mem hc
    obtain ⟨v, h1, h2, _⟩ := (C111_rows names threshold fit type s d hnd h).2 k c hk
    exact ⟨v, h1, h2⟩
  · intro h
    unfold cycleFeatures
    rw [cyclesOf_ok]
    obtain ⟨out, hf⟩ := (fits_error fit (usableCycles threshold type s) []).2 (fun c hc => (h c hc).imp fun _ h => h.1)
    rw [hf]
    simp only
    obtain ⟨rows, hout, hlen, hall⟩ := fits_ok fit _ [] out (by simpa using usable_nodup hnd) hf
    rw [if_pos]
    · exact ⟨_, rfl⟩
    · rw [List.all_eq_true]
      intro p hp
      obtain ⟨k, hk⟩ := List.getElem?_of_mem hp
      rw [hout, List.nil_append, List.getElem?_zip_eq_some] at hk
      obtain ⟨v, hv, hfit⟩ := hall k p.1 hk.1
      obtain ⟨w, hw, hl⟩ := h p.1 (List.mem_of_getElem? hk.1)
      rw [hfit] at hw
      cases hw
      rw [hk.2] at hv
      cases hv
      exact decide_eq_true hl

/-- version 1: which value is under which name, for the losses `lli`, `lamPe`, `lamNe`, the fraction `x2` and the weights
found by the optimiser and the report `h` about the electrodes -/
theorem C111_names_v1 (lli lamPe lamNe x2 real emulated : Rat) (h : Halfcell) :
    namesV1.zip (valuesV1 [lli, lamPe, lamNe, x2, real, emulated] h) =
      [("LLI", some lli), ("LAM_PE", some lamPe), ("LAM_NE", some lamNe), ("x_NE_2", some x2), ("alpha_real", some real),
       ("alpha_emulated", some emulated), ("PE_upper_voltage", h.peUpperV), ("PE_lower_voltage", h.peLowerV),
       ("PE_upper_SOC", h.peUpperSoc), ("PE_lower_SOC", h.peLowerSoc), ("PE_mass", h.peMass),
       ("NE_upper_voltage", h.neUpperV), ("NE_lower_voltage", h.neLowerV), ("NE_upper_SOC", h.neUpperSoc),
       ("NE_lower_SOC", h.neLowerSoc), ("NE_mass", h.neMass), ("Li_mass", h.liMass)] ∧
    (valuesV1 [lli, lamPe, lamNe, x2, real, emulated] h).length = namesV1.length := ⟨rfl, rfl⟩

/-- version 2: which value is under which name: the error and the solution of the optimiser, then the report about the
electrodes under its own names -/
theorem C111_names_v2 (err lli qpe qne x2 : Rat) (pe ne : Curve) (cols : List (String × Option Rat))
    (h : electrodeInfo pe ne = .ok cols) :
    namesV2.zip (valuesV2 err [lli, qpe, qne, x2] cols) =
      [("rmse_error", some err), ("LLI_opt", some lli), ("Q_pe_opt", some qpe), ("Q_ne_opt", some qne), ("x_NE_2", some x2)]
        ++ cols ∧
    (valuesV2 err [lli, qpe, qne, x2] cols).length = namesV2.length := by
  have hn : cols.map Prod.fst = namesV2.drop 5 := by
    unfold electrodeInfo at h
    simp only at h
    cases hk : nearest upperV ((fullCell pe ne).map Prod.snd) with
    | none => rw [hk] at h; cases h
    | some k0 =>
      rw [hk] at h
      simp only [Except.ok.injEq] at h
      rw [← h]
      simp only [List.map_append, List.map_map, List.map_cons, List.map_nil]
      have e : ∀ (p : String) (f : String × Rat → Option Rat),
          levels.map (Prod.fst ∘ fun l => (p ++ l.1, f l)) = levels.map (fun l => p ++ l.1) := fun _ _ => rfl
      rw [e, e, e, e]
      decide +kernel
  have h5 : namesV2 = ["rmse_error", "LLI_opt", "Q_pe_opt", "Q_ne_opt", "x_NE_2"] ++ cols.map Prod.fst := by
    rw [hn]; decide +kernel
  have hv : valuesV2 err [lli, qpe, qne, x2] cols = [some err, some lli, some qpe, some qne, some x2] ++ cols.map Prod.snd := rfl
  constructor
  · rw [h5, hv, List.zip_append (by rfl)]
    congr 1
    rw [List.zip_map']
    simp
  · rw [h5, hv]; simp

/-- features from the first two usable diagnostics: the values of their fits under the names with the prefixes `diag_0_`
and `diag_1_` -/
theorem C111_pair (names : List String) (threshold : Rat) (fit : Int → Except Err (List (Option Rat))) (type : String)
    (s : List SRow) (row : List (String × Option Rat)) (c0 c1 : Int) (cs : List Int) (hnd : (s.map SRow.cycle).Nodup)
    (hcs : usableCycles threshold type s = c0 :: c1 :: cs)
    (h : pairFeatures names threshold fit type s = .ok row) :
    ∃ v0 v1, fit c0 = .ok v0 ∧ fit c1 = .ok v1 ∧ v0.length = names.length ∧ v1.length = names.length ∧
      row = (names.map (fun n => "diag_0_" ++ n)).zip v0 ++ (names.map (fun n => "diag_1_" ++ n)).zip v1 := by
  have hn := usable_nodup (threshold := threshold) (type := type) hnd
  rw [hcs] at hn
  have hne : c0 ≠ c1 := by
    intro he
    rw [List.nodup_cons] at hn
    exact hn.1 (by simp [he])
  unfold pairFeatures at h
  rw [cyclesOf_ok, hcs] at h
  simp only [List.take_succ_cons, List.take_zero] at h
  cases hf : fits fit [c0, c1] [] with
  | error e => rw [hf] at h; cases h
  | ok out =>
    rw [hf] at h
    simp only at h
    obtain ⟨rows, hout, hlen, hall⟩ := fits_ok fit _ [] out (by simp [hne]) hf
    obtain ⟨v0, h0, f0⟩ := hall 0 c0 rfl
    obtain ⟨v1, h1, f1⟩ := hall 1 c1 rfl
    match rows, hlen with
    | [a, b], _ =>
      simp only [List.getElem?_cons_zero, Option.some.injEq] at h0
      simp only [List.getElem?_cons_succ, List.getElem?_cons_zero, Option.some.injEq] at h1
      subst h0; subst h1
      rw [hout] at h
      simp only [List.nil_append, List.zip_cons_cons, List.zip_nil_right, List.all_cons, List.all_nil, Bool.and_true] at h
      by_cases hl : a.length = names.length ∧ b.length = names.length
      · rw [if_pos (by simp [hl.1, hl.2])] at h
        simp only [Except.ok.injEq] at h
        refine ⟨a, b, f0, f1, hl.1, hl.2, ?_⟩
        rw [← h, List.zip_append (by simp [hl.1])]
      · rw [if_neg (by simpa using hl)] at h
        cases h

/-- with a single usable diagnostic the data pass the validation, but the features from two diagnostics cannot be formed -/
theorem C111_single_violated (names : List String) (threshold : Rat) (fit : Int → Except Err (List (Option Rat)))
    (type : String) (s : List SRow) (c : Int) (hcs : usableCycles threshold type s = [c])
    (hrpt : ∃ r ∈ s, "rpt".toList <:+: r.cycleType.toList) :
    valid threshold type s = true ∧ ∃ e, pairFeatures names threshold fit type s = .error e := by
  constructor
  · unfold valid
    rw [cyclesOf_ok, hcs]
    obtain ⟨r, hr, hi⟩ := hrpt
    simp only [List.isEmpty_cons, Bool.not_false, Bool.true_and, List.any_eq_true]
    exact ⟨r, hr, (containsSub_iff _ _).2 hi⟩
  · unfold pairFeatures
    rw [cyclesOf_ok, hcs]
    simp only [List.take_succ_cons, List.take_nil]
    unfold fits
    cases fit c with
    | error e => exact ⟨e, rfl⟩
    | ok v =>
      simp only [fits, Dict.set]
      by_cases hl : ([(c, v)] : Dict Int (List (Option Rat))).all (fun p => decide (p.2.length = names.length)) = true
      · rw [if_pos hl]; exact ⟨_, rfl⟩
      · rw [if_neg hl]; exact ⟨_, rfl⟩

/-- the validation of the featurizers accepts data whose features from two diagnostics cannot be computed -/
theorem C86_intracell_violated : ∃ s : List SRow, valid thresholdV2 "rpt_0.2C" s = true ∧
    ∀ (names : List String) (fit : Int → Except Err (List (Option Rat))),
      ∃ e, pairFeatures names thresholdV2 fit "rpt_0.2C" s = .error e := by
  have hu : usableCycles thresholdV2 "rpt_0.2C" [⟨0, "reset", some 4⟩, ⟨1, "rpt_0.2C", some 4⟩] = [1] := by decide +kernel
  have hr : ∃ r ∈ ([⟨0, "reset", some 4⟩, ⟨1, "rpt_0.2C", some 4⟩] : List SRow), "rpt".toList <:+: r.cycleType.toList :=
    ⟨⟨1, "rpt_0.2C", some 4⟩, by simp, ⟨[], "_0.2C".toList, by decide +kernel⟩⟩
  refine ⟨[⟨0, "reset", some 4⟩, ⟨1, "rpt_0.2C", some 4⟩], ?_, ?_⟩
  · exact (C111_single_violated [] thresholdV2 (fun _ => .ok []) _ _ _ hu hr).1
  · intro names fit
    exact (C111_single_violated names thresholdV2 fit _ _ _ hu hr).2

/-- the validation asks for a usable diagnostic and for a diagnostic whose type contains "rpt" -/
theorem C111_valid (threshold : Rat) (type : String) (s : List SRow) :
    valid threshold type s = true ↔
      (∃ r ∈ s, Usable threshold type r) ∧ ∃ r ∈ s, "rpt".toList <:+: r.cycleType.toList := by
  unfold valid
  rw [cyclesOf_ok]
  simp only [Bool.and_eq_true, Bool.not_eq_true', List.any_eq_true]
  refine and_congr ?_ ?_
  · unfold usableCycles
    rw [List.isEmpty_eq_false_iff_exists_mem]
    simp only [List.mem_map, List.mem_filter, decide_eq_true_iff]
    constructor
    · rintro ⟨_, r, hr, _⟩; exact ⟨r, hr⟩
    · rintro ⟨r, hr⟩; exact ⟨_, r, hr, rfl⟩
  · constructor
    · rintro ⟨r, hr, h⟩; exact ⟨r, hr, (containsSub_iff _ _).1 h⟩
    · rintro ⟨r, hr, h⟩; exact ⟨r, hr, (containsSub_iff _ _).2 h⟩

/-- the capacities above which a diagnostic is used: 70 percent of 4.84 Ah in version 1, none in version 2 -/
theorem C111_threshold (type : String) (r : SRow) :
    (Usable thresholdV1 type r ↔ r.cycleType = type ∧ ∃ q, r.dchg = some q ∧ 3388 / 1000 < q) ∧
    (Usable thresholdV2 type r ↔ r.cycleType = type ∧ ∃ q, r.dchg = some q ∧ 0 < q) := by
  have h1 : thresholdV1 = 3388 / 1000 := by unfold thresholdV1; norm_num
  have h2 : thresholdV2 = 0 := rfl
  rw [h1, h2]
  exact ⟨Iff.rfl, Iff.rfl⟩

example : (([⟨0, "reset", some 4⟩, ⟨1, "rpt_0.2C", some 4⟩, ⟨2, "rpt_0.2C", some 3⟩, ⟨8, "rpt_0.2C", some (34 / 10)⟩] :
    List SRow).map SRow.cycle).Nodup ∧ usableCycles thresholdV1 "rpt_0.2C" [⟨0, "reset", some 4⟩, ⟨1, "rpt_0.2C", some 4⟩,
      ⟨2, "rpt_0.2C", some 3⟩, ⟨8, "rpt_0.2C", some (34 / 10)⟩] = [1, 8] := by decide +kernel

/-! ### C112: blended electrodes -/

/-- the second material of a blend and its fraction: the sign of `x2` selects between the positive and the negative one, if
there is a negative one -/
def SecondMaterial (pos neg : Curve) (x2 : Rat) (e2 : Curve) (x : Rat) : Prop :=
  (0 < x2 → e2 = pos ∧ x = x2) ∧ (x2 ≤ 0 → x = - x2 ∧ (neg ≠ [] → e2 = neg) ∧ (neg = [] → e2 = pos))

theorem second_ok (pos neg : Curve) (x2 : Rat) : SecondMaterial pos neg x2 (second pos neg x2).1 (second pos neg x2).2 := by
  unfold SecondMaterial second absR
  constructor
  · intro h
    by_cases hn : neg.isEmpty = true
    · rw [if_pos hn]; simp only; rw [if_neg (not_lt.2 (le_of_lt h))]; exact ⟨trivial, rfl⟩
    · rw [if_neg hn, if_pos h]; exact ⟨rfl, rfl⟩
  · intro h
    have habs : (if x2 < 0 then - x2 else x2) = - x2 := by
      by_cases h0 : x2 < 0
      · rw [if_pos h0]
      · have : x2 = 0 := le_antisymm h (not_lt.1 h0)
        rw [if_neg h0, this]; simp
    cases neg with
    | nil => simp only [List.isEmpty_nil, if_true, habs]; exact ⟨trivial, fun h => absurd rfl h, fun _ => trivial⟩
    | cons n ns =>
      simp only [List.isEmpty_cons, Bool.false_eq_true, if_false, if_neg (not_lt.2 h), habs]
      exact ⟨trivial, fun _ => trivial, fun h => absurd h (by simp)⟩

/-- without a second material the electrode is that of the file -/
theorem C112_single (e1 neg : Curve) (x2 : Rat) : blend e1 [] neg x2 = .ok e1 := by
  unfold blend
  simp

/-- `mix` is the mixture of two electrodes at 1001 evenly spaced voltages from `a` to `b`: states of charge weighted with the
fraction `x` of the second one -/
def IsMixture (e1 e2 : Curve) (x a b : Rat) (mix : Curve) : Prop :=
  (∃ vs, Even vs a b ∧ mix.map Prod.snd = vs.map some) ∧
  ∀ s v, (s, some v) ∈ mix → ∃ s1 s2, SocAt e1 v s1 ∧ SocAt e2 v s2 ∧ s = (1 - x) * s1 + x * s2

/-- `a` is the lowest and `b` the highest voltage of the two electrodes -/
def VoltageRange (e1 e2 : Curve) (a b : Rat) : Prop :=
  (∃ p ∈ e1 ++ e2, p.2 = some a) ∧ (∃ p ∈ e1 ++ e2, p.2 = some b) ∧ ∀ p ∈ e1 ++ e2, ∀ v, p.2 = some v → a ≤ v ∧ v ≤ b

theorem mixture_ok {e1 e2 : Curve} {x a b : Rat} (h1 : Monotone e1) (h2 : Monotone e2) :
    IsMixture e1 e2 x a b (mixture e1 e2 x a b) := by
  constructor
  · refine ⟨linspace a b 1001, even_linspace _ _, ?_⟩
    unfold mixture
    rw [List.map_map]
    rfl
  · intro s v h
    unfold mixture at h
    obtain ⟨w, hw, he⟩ := List.mem_map.1 h
    obtain ⟨hs, hv⟩ := Prod.mk.inj he
    have hv := Option.some.inj hv
    rw [hv] at hs
    exact ⟨_, _, socAt_ok h1 v, socAt_ok h2 v, hs.symm⟩

theorem grid_mem {x : Rat} : x ∈ linspace 0 100 1001 ↔ ∃ k : Nat, k ≤ 1000 ∧ x = (k : Rat) / 10 := by
  constructor
  · intro h
    obtain ⟨k, hk, rfl⟩ := mem_linspace h
    exact ⟨k, by omega, by ring⟩
  · rintro ⟨k, hk, rfl⟩
    have := (even_linspace 0 100).2 k (by omega)
    rw [show (0 : Rat) + (k : Rat) * (100 - 0) / 1000 = (k : Rat) / 10 by ring] at this
    exact List.mem_of_getElem? this

theorem blend_cases {e1 pos neg out : Curve} {x2 : Rat} (hpos : pos ≠ []) (h : blend e1 pos neg x2 = .ok out) :
    ∃ a b lo hi, minN (e1.map Prod.snd ++ (second pos neg x2).1.map Prod.snd) = some a ∧
      maxN (e1.map Prod.snd ++ (second pos neg x2).1.map Prod.snd) = some b ∧
      range (present ((linspace 0 100 1001).map (fun s =>
        (s, interp (mixture e1 (second pos neg x2).1 (second pos neg x2).2 a b) s)))) = some (lo, hi) ∧ hi ≠ 0 ∧
      out = (linspace lo hi 1001).map (fun s => (s / hi * 100, interp (present ((linspace 0 100 1001).map (fun s =>
        (s, interp (mixture e1 (second pos neg x2).1 (second pos neg x2).2 a b) s)))) s)) := by
  unfold blend at h
  rw [if_neg (by simpa using hpos)] at h
  simp only at h
  cases ha : minN (e1.map Prod.snd ++ (second pos neg x2).1.map Prod.snd) with
  | none => rw [ha] at h; simp at h
  | some a => cases hb : maxN (e1.map Prod.snd ++ (second pos neg x2).1.map Prod.snd) with
    | none => rw [ha, hb] at h; simp at h
    | some b =>
      rw [ha, hb] at h
      simp only at h
      cases hr : range (present ((linspace 0 100 1001).map (fun s =>
          (s, interp (mixture e1 (second pos neg x2).1 (second pos neg x2).2 a b) s)))) with
      | none => rw [hr] at h; cases h
      | some r =>
        obtain ⟨lo, hi⟩ := r
        rw [hr] at h
        simp only at h
        by_cases h0 : hi = 0
        · rw [if_pos h0] at h; cases h
        · rw [if_neg h0] at h
          simp only [Except.ok.injEq] at h
          exact ⟨a, b, lo, hi, rfl, rfl, hr, h0, h.symm⟩

/-- a blend of two electrodes: the mixture over the voltages of both is read at the states of charge 0, 0.1, …, 100; the
places at which it has a voltage are scaled so that the last one is 100, and the voltages are interpolated on 1001 of
them.  (Missing: two rows with the same voltage.) -/
theorem C112_blend_partial (e1 pos neg out : Curve) (x2 : Rat) (e2 : Curve) (x : Rat) (hpos : pos ≠ [])
    (hsec : SecondMaterial pos neg x2 e2 x) (h1 : Monotone e1) (h2 : Monotone e2) (h : blend e1 pos neg x2 = .ok out) :
    ∃ a b mix, VoltageRange e1 e2 a b ∧ IsMixture e1 e2 x a b mix ∧
      (Distinct mix → ∃ scale lo hi, (∀ s v, (s, v) ∈ scale ↔ (∃ k : Nat, k ≤ 1000 ∧ s = (k : Rat) / 10) ∧ v ≠ none ∧ OnCurve mix s v) ∧
        Extent scale lo hi ∧ 0 < hi ∧ Even (out.map Prod.fst) (lo / hi * 100) 100 ∧
        ∀ s v, (s, v) ∈ out → OnCurve scale (s * hi / 100) v) := by
  have he : e2 = (second pos neg x2).1 ∧ x = (second pos neg x2).2 := by
    have hm := second_ok pos neg x2
    rcases lt_or_ge 0 x2 with hx | hx
    · exact ⟨(hsec.1 hx).1.trans (hm.1 hx).1.symm, (hsec.1 hx).2.trans (hm.1 hx).2.symm⟩
    · refine ⟨?_, (hsec.2 hx).1.trans (hm.2 hx).1.symm⟩
      by_cases hn : neg = []
      · exact ((hsec.2 hx).2.2 hn).trans ((hm.2 hx).2.2 hn).symm
      · exact ((hsec.2 hx).2.1 hn).trans ((hm.2 hx).2.1 hn).symm
  obtain ⟨a, b, lo, hi, ha, hb, hr, h0, hout⟩ := blend_cases hpos h
  rw [← he.1] at ha hb
  rw [← he.1, ← he.2] at hr hout
  refine ⟨a, b, mixture e1 e2 x a b, ?_, mixture_ok h1 h2, ?_⟩
  · rw [← List.map_append] at ha hb
    obtain ⟨ha1, ha2⟩ := minN_some _ _ ha
    obtain ⟨hb1, hb2⟩ := maxN_some _ _ hb
    obtain ⟨p, hp, hpe⟩ := List.mem_map.1 ha1
    obtain ⟨q, hq, hqe⟩ := List.mem_map.1 hb1
    refine ⟨⟨p, hp, hpe⟩, ⟨q, hq, hqe⟩, ?_⟩
    intro r hr v hv
    exact ⟨ha2 v (List.mem_map.2 ⟨r, hr, hv⟩), hb2 v (List.mem_map.2 ⟨r, hr, hv⟩)⟩
  · intro hd
    have hne : mixture e1 e2 x a b ≠ [] := by
      intro hnil
      have : (mixture e1 e2 x a b).length = 1001 := by unfold mixture; rw [List.length_map, length_linspace]
      rw [hnil] at this; simp at this
    generalize mixture e1 e2 x a b = mix at *
    have hscale : ∀ s v, (s, v) ∈ present ((linspace 0 100 1001).map (fun s => (s, interp mix s))) ↔
        (∃ k : Nat, k ≤ 1000 ∧ s = (k : Rat) / 10) ∧ v ≠ none ∧ OnCurve mix s v := by
      intro s v
      rw [present_mem, List.mem_map]
      constructor
      · rintro ⟨⟨s', hs', he⟩, hv⟩
        obtain ⟨rfl, rfl⟩ := Prod.mk.inj he
        exact ⟨grid_mem.1 hs', hv, interp_onCurve mix hd s'⟩
      · rintro ⟨hk, hv, hon⟩
        refine ⟨⟨s, grid_mem.2 hk, ?_⟩, hv⟩
        rw [(interp_iff mix hd hne s v).2 hon]
    have hext := (range_iff ..).1 hr
    have hdist : Distinct (present ((linspace 0 100 1001).map (fun s => (s, interp mix s)))) := by
      have : Distinct ((linspace 0 100 1001).map (fun s => (s, interp mix s))) := by
        refine Props.Intracell.even_distinct (a := 0) (b := 100) ?_ (by norm_num)
        rw [Props.Intracell.map_fst_grid]
        exact even_linspace _ _
      exact this.sublist (List.filter_sublist.map Prod.fst)
    have hhi : 0 < hi := by
      obtain ⟨⟨s, v⟩, hm, hse⟩ := hext.2.1
      obtain ⟨⟨k, _, hk⟩, _⟩ := (hscale s v).1 hm
      simp only at hse
      refine lt_of_le_of_ne ?_ (Ne.symm h0)
      rw [← hse, hk]
      positivity
    refine ⟨present ((linspace 0 100 1001).map (fun s => (s, interp mix s))), lo, hi, hscale, hext, hhi, ?_, ?_⟩
    · rw [hout, List.map_map]
      constructor
      · rw [List.length_map, length_linspace]
      · intro k hk
        rw [List.getElem?_map, (even_linspace lo hi).2 k hk]
        simp only [Option.map_some, Function.comp_apply]
        have : ∀ l h k : Rat, h ≠ 0 → (l + k * (h - l) / 1000) / h * 100 = l / h * 100 + k * (100 - l / h * 100) / 1000 := by
          intro l h k hh
          have e1 : k * (h - l) / h = k * (1 - l / h) := by field_simp
          have : (l + k * (h - l) / 1000) / h = l / h + k * (h - l) / h / 1000 := by ring
          rw [this, e1]; ring
        rw [this _ _ _ h0]
    · intro s v hsv
      rw [hout] at hsv
      obtain ⟨s', hs', he⟩ := List.mem_map.1 hsv
      obtain ⟨hx, rfl⟩ := Prod.mk.inj he
      have : s * hi / 100 = s' := by rw [← hx]; field_simp
      rw [this]
      exact interp_onCurve _ hdist s'

/-- an electrode with states of charge from 10 to 100 -/
def startsAtTen : Curve := [(10, some 1), (100, some 0)]

theorem ten_soc (v : Rat) : socAt startsAtTen v = 100 - 90 * v := by
  have : byVoltage startsAtTen = [(0, 100), (1, 10)] := by decide +kernel
  unfold socAt
  rw [this]
  simp only [extrapSorted]
  ring

theorem ten_mixture (x : Rat) : mixture startsAtTen startsAtTen x 0 1
    = (linspace 0 1 1001).map (fun v => (100 - 90 * v, some v)) := by
  unfold mixture
  refine List.map_congr_left ?_
  intro v _
  rw [ten_soc]
  simp only [Prod.mk.injEq, and_true]
  ring

theorem ten_distinct : Distinct ((linspace 0 1 1001).map (fun v => (100 - 90 * v, some v))) := by
  have h0 : Distinct ((linspace 0 1 1001).map (fun v => (v, some v))) := by
    refine Props.Intracell.even_distinct (a := 0) (b := 1) ?_ (by norm_num)
    rw [List.map_map]
    have : (Prod.fst ∘ fun v : Rat => (v, some v)) = id := rfl
    rw [this, List.map_id]
    exact even_linspace _ _
  unfold Distinct at *
  rw [List.map_map] at *
  have e1 : (Prod.fst ∘ fun v : Rat => (100 - 90 * v, some v)) = fun v => 100 - 90 * v := rfl
  have e2 : (Prod.fst ∘ fun v : Rat => (v, some v)) = id := rfl
  rw [e2, List.map_id] at h0
  rw [e1]
  refine h0.map ?_
  intro p q hpq
  simp only at hpq
  linarith

theorem ten_none {s : Rat} (hs : s < 10) :
    interp ((linspace 0 1 1001).map (fun v => (100 - 90 * v, some v))) s = none := by
  rcases interp_onCurve _ ten_distinct s with h | ⟨p, hp, q, hq, h1, h2, _⟩ | ⟨_, h⟩
  · obtain ⟨v, hv, he⟩ := List.mem_map.1 h
    have := (linspace_le (by norm_num) hv).2
    have he := (Prod.mk.inj he).1
    exfalso; linarith
  · obtain ⟨v, hv, he⟩ := List.mem_map.1 hp
    have := (linspace_le (by norm_num) hv).2
    rw [← he] at h1
    simp only at h1
    exfalso; linarith
  · exact h

theorem ten_blend (x2 : Rat) : ∃ out, blend startsAtTen startsAtTen [] x2 = .ok out ∧ ∀ p ∈ out, 10 ≤ p.1 := by
  have hsec : (second startsAtTen [] x2).1 = startsAtTen := rfl
  have ha : minN (startsAtTen.map Prod.snd ++ startsAtTen.map Prod.snd) = some 0 := by decide +kernel
  have hb : maxN (startsAtTen.map Prod.snd ++ startsAtTen.map Prod.snd) = some 1 := by decide +kernel
  have hin : (100, some 0) ∈ present ((linspace 0 100 1001).map (fun s =>
      (s, interp (mixture startsAtTen startsAtTen (second startsAtTen [] x2).2 0 1) s))) := by
    rw [present_mem, List.mem_map]
    refine ⟨⟨100, grid_mem.2 ⟨1000, le_refl _, by norm_num⟩, ?_⟩, by simp⟩
    have : interp (mixture startsAtTen startsAtTen (second startsAtTen [] x2).2 0 1) 100 = some 0 := by
      rw [ten_mixture]
      have hm : (100, some 0) ∈ (linspace 0 1 1001).map (fun v : Rat => (100 - 90 * v, some v)) := by
        refine List.mem_map.2 ⟨0, List.mem_of_getElem? (((even_linspace 0 1).2 0 (by omega)).trans ?_), ?_⟩
        · congr 1; norm_num
        · norm_num
      exact (interp_iff _ ten_distinct (List.ne_nil_of_mem hm) 100 (some 0)).2 (Or.inl hm)
    rw [this]
  have hlow : ∀ p ∈ present ((linspace 0 100 1001).map (fun s =>
      (s, interp (mixture startsAtTen startsAtTen (second startsAtTen [] x2).2 0 1) s))), 10 ≤ p.1 ∧ p.1 ≤ 100 := by
    intro p hp
    rw [present_mem, List.mem_map] at hp
    obtain ⟨⟨s, hs, rfl⟩, hv⟩ := hp
    simp only at hv ⊢
    refine ⟨?_, (linspace_le (by norm_num) hs).2⟩
    by_contra hlt
    rw [ten_mixture, ten_none (not_le.1 hlt)] at hv
    exact hv rfl
  unfold blend
  rw [hsec]
  simp only [ha, hb]
  generalize present ((linspace 0 100 1001).map (fun s =>
      (s, interp (mixture startsAtTen startsAtTen (second startsAtTen [] x2).2 0 1) s))) = first at *
  rw [if_neg (by decide)]
  cases hr : range first with
  | none => rw [range_none] at hr; rw [hr] at hin; cases hin
  | some r =>
    obtain ⟨lo, hi⟩ := r
    obtain ⟨⟨p, hp, hpe⟩, ⟨q, hq, hqe⟩, hall⟩ := (range_iff ..).1 hr
    have h1 := hlow p hp
    have h2 := hlow q hq
    have h3 := (hall p hp).2
    rw [hpe] at h1 h3
    rw [hqe] at h2
    simp only
    rw [if_neg (by intro h; linarith)]
    refine ⟨_, rfl, ?_⟩
    intro r hrm
    obtain ⟨s, hs, rfl⟩ := List.mem_map.1 hrm
    have hs' := (linspace_le h3 hs).1
    simp only
    have hpos : 0 < hi := by linarith
    have : 10 / hi ≤ s / hi := by rw [div_le_div_iff_of_pos_right hpos]; linarith
    have : 10 / 100 ≤ 10 / hi := by rw [div_le_div_iff₀ (by norm_num) hpos]; linarith
    linarith

example : Monotone startsAtTen ∧ SecondMaterial startsAtTen [] (1 / 2) startsAtTen (1 / 2) ∧ startsAtTen ≠ [] := by
  refine ⟨⟨?_, ?_⟩, ⟨fun _ => ⟨rfl, rfl⟩, fun h => ?_⟩, by decide⟩
  · unfold startsAtTen; decide +kernel
  · exact ⟨(10, some 1), by simp [startsAtTen], (100, some 0), by simp [startsAtTen], by simp, by simp, by simp⟩
  · norm_num at h

/-- the states of charge of a blended electrode do not run from 0: those of a blend of two electrodes that start at 10 are
at least 10, although they are scaled to end at 100 -/
theorem C112_start_violated : ∃ e1 e2 out, blend e1 e2 [] (1 / 2) = .ok out ∧ ∀ p ∈ out, 10 ≤ p.1 :=
  ⟨_, _, ten_blend (1 / 2)⟩

theorem range_minN {e1 e2 : Curve} {a b : Rat} (h : VoltageRange e1 e2 a b) :
    minN (e1.map Prod.snd ++ e2.map Prod.snd) = some a ∧ maxN (e1.map Prod.snd ++ e2.map Prod.snd) = some b := by
  rw [← List.map_append]
  obtain ⟨⟨p, hp, hpe⟩, ⟨q, hq, hqe⟩, hall⟩ := h
  have ma : some a ∈ (e1 ++ e2).map Prod.snd := List.mem_map.2 ⟨p, hp, hpe⟩
  have mb : some b ∈ (e1 ++ e2).map Prod.snd := List.mem_map.2 ⟨q, hq, hqe⟩
  constructor
  · cases h1 : minN ((e1 ++ e2).map Prod.snd) with
    | none => exact absurd ⟨a, ma⟩ ((minN_none _).1 h1)
    | some m =>
      obtain ⟨h2, h3⟩ := minN_some _ _ h1
      obtain ⟨r, hr, hre⟩ := List.mem_map.1 h2
      exact congrArg some (le_antisymm (h3 a ma) (hall r hr m hre).1)
  · cases h1 : maxN ((e1 ++ e2).map Prod.snd) with
    | none => exact absurd ⟨b, mb⟩ ((maxN_none _).1 h1)
    | some m =>
      obtain ⟨h2, h3⟩ := maxN_some _ _ h1
      obtain ⟨r, hr, hre⟩ := List.mem_map.1 h2
      exact congrArg some (le_antisymm (hall r hr m hre).2 (h3 b mb))

/-- with the default bounds, which fix the fraction of the second material at 1, the first material has no influence
beyond its voltage range -/
theorem C112_default (e1 e1' pos neg : Curve) (a b : Rat) (hpos : pos ≠ []) (h : VoltageRange e1 pos a b)
    (h' : VoltageRange e1' pos a b) : blend e1 pos neg 1 = blend e1' pos neg 1 := by
  have hmix : ∀ e2 : Curve, mixture e1 e2 1 a b = mixture e1' e2 1 a b := by
    intro e2
    unfold mixture
    refine List.map_congr_left ?_
    intro v _
    simp
  have hs := (second_ok pos neg 1).1 (by norm_num)
  unfold blend
  rw [if_neg (by simpa using hpos), if_neg (by simpa using hpos), hs.1, hs.2]
  simp only [(range_minN h).1, (range_minN h).2, (range_minN h').1, (range_minN h').2, hmix]

example : VoltageRange startsAtTen startsAtTen 0 1 ∧ VoltageRange [(0, some 1), (50, some (1 / 2)), (100, some 0)] startsAtTen 0 1 := by
  refine ⟨⟨?_, ?_, ?_⟩, ?_, ?_, ?_⟩
  · exact ⟨(100, some 0), by simp [startsAtTen], rfl⟩
  · exact ⟨(10, some 1), by simp [startsAtTen], rfl⟩
  · simp [startsAtTen]
  · exact ⟨(100, some 0), by simp [startsAtTen], rfl⟩
  · exact ⟨(10, some 1), by simp [startsAtTen], rfl⟩
  · simp [startsAtTen]; norm_num

/-! ### C113: the error metric -/

/-- the metric a user asks for with an error type; unknown types stand for the voltage over the capacity -/
def asked (errorType : String) : Metric :=
  if errorType = "dVdQ" then .dvdq else if errorType = "dQdV" then .dqdv else .vq

/-- the fits to measured data minimise the error in the representation asked for -/
theorem C113_metric (errorType : String) : metricOf errorType = asked errorType := by
  unfold metricOf asked
  by_cases h1 : errorType = "V-Q"
  · subst h1; decide +kernel
  · rw [if_neg h1]

/-- the fits to synthetic data minimise the error of dV/dQ if that of dQ/dV is asked for -/
theorem C113_synthetic_violated : metricSynthetic "dQdV" = .dvdq ∧ asked "dQdV" = .dqdv := by decide +kernel

/-- for the other error types they minimise the one asked for -/
theorem C113_synthetic_partial (errorType : String) (h : errorType ≠ "dQdV") : metricSynthetic errorType = asked errorType := by
  unfold metricSynthetic asked
  rw [if_neg h, if_neg h]
  by_cases h1 : errorType = "V-Q"
  · subst h1; decide +kernel
  · rw [if_neg h1]

end Beep.Props.IntracellFeatures
