import Verif.Proof.Growth
/-
C153: structuring a run again after more data were recorded.
-/
namespace Beep.Props.Growth
open Beep Beep.Pandas Beep.Growth Beep.Spec.Growth

/-- the columns of the summary of `Summary.Row`: the row of a finished cycle is found again -/
theorem summary_row {p : Summary.Params} {diag : Option (List Int)} {raw more : List Summary.Raw}
    {s s' : List Summary.Row} (h : Summary.summarize p diag raw = .ok s)
    (h' : Summary.summarize p diag (raw ++ more) = .ok s')
    (hreg : ∃ b ∈ more, b.cycle ∉ diag.getD []) {r : Summary.Row} (hr : r ∈ s)
    (hf : Finished (more.map Summary.Raw.cycle) r.cycle) :
    ∃ r' ∈ s', SameButDuration r' r ∧
      (NoGap (raw.map Summary.Raw.cycle) r.cycle → r'.duration = r.duration) := by
  have ht : r ∈ Summary.table p diag raw := by
    rcases summarize_sub h with e | e
    · rw [← e]; exact hr
    · rw [e] at hr; exact List.mem_of_mem_dropLast hr
  have hlab := (Props.Summary.C62_capacities p diag _ s h r hr).1
  rw [table_bare] at ht
  obtain ⟨r0, hr0, e0⟩ := List.mem_map.mp ht
  have hc0 : r0.cycle = r.cycle := by rw [← e0]
  have hl0 : r0.label = r.label := by rw [← e0]
  obtain ⟨pre, post, ebare, hpre, hle, hpost⟩ := bare_mem hr0 (more := more) (by rw [hc0]; exact hf)
  have hne : post ≠ [] := table_length_pos (r := r0) (by rw [hc0]; exact hf) ebare hle hreg
  let g : Summary.Row → Summary.Row :=
    fun r => { r with duration := Summary.durationFor p (raw ++ more) r.label }
  have hmem : g r0 ∈ s' := by
    have hd : g r0 ∈ (Summary.table p diag (raw ++ more)).dropLast := by
      rw [table_bare, ebare, List.map_append]
      exact mem_dropLast_of (List.mem_map.mpr ⟨r0, hpre, rfl⟩) (by simpa using hne)
    rcases summarize_sub h' with e | e
    · rw [e]; exact List.mem_of_mem_dropLast hd
    · rw [e]; exact hd
  refine ⟨g r0, hmem, ?_, ?_⟩
  · rw [← e0]
    exact ⟨rfl, rfl, rfl, rfl, rfl, rfl, rfl, rfl, rfl⟩
  · intro hg
    have e1 : r.duration = Summary.durationFor p raw r0.label := by rw [← e0]
    rw [e1]
    change Summary.durationFor p (raw ++ more) r0.label = _
    unfold Summary.durationFor
    split
    · rename_i hpos
      rw [hl0, hlab] at hpos ⊢
      exact durationAt_more hf (noGap_length hpos hg)
    · rfl

/-- C153, summary: when a run is structured again after more data were recorded, and these
include a regular cycle, every cycle that was in the summary and was over before the additional
data began is there again, with the same values in all columns; for the charge duration this
needs the cycles to be numbered from 0 without gaps. -/
theorem C153_summary_partial (p : Summary.Params) (diag : Option (List Int)) (hasTemp : Bool)
    (raw more : List SummaryFull.Raw) (s s' : List (Summary.Row × Dict String (Option Rat)))
    (h : SummaryFull.summarize p diag hasTemp raw = .ok s)
    (h' : SummaryFull.summarize p diag hasTemp (raw ++ more) = .ok s')
    (hreg : ∃ b ∈ more, b.cycle ∉ diag.getD []) :
    ∀ o ∈ s, Finished (more.map SummaryFull.Raw.cycle) o.1.cycle →
      ∃ o' ∈ s', SameButDuration o'.1 o.1 ∧ o'.2 = o.2 ∧
        (NoGap (raw.map SummaryFull.Raw.cycle) o.1.cycle → o'.1.duration = o.1.duration) := by
  rintro ⟨r, cols⟩ ho hf
  obtain ⟨t, ht, et, hcols⟩ := Props.SummaryFull.summarize_mem h
  obtain ⟨t', ht', et', hcols'⟩ := Props.SummaryFull.summarize_mem h'
  rw [List.map_append] at ht'
  have hr : r ∈ t := by rw [← et]; exact List.mem_map.mpr ⟨_, ho, rfl⟩
  have hm : ∀ l : List SummaryFull.Raw, (l.map SummaryFull.toRaw).map Summary.Raw.cycle = l.map SummaryFull.Raw.cycle := by
    intro l; rw [List.map_map]; rfl
  have hreg' : ∃ b ∈ more.map SummaryFull.toRaw, b.cycle ∉ diag.getD [] := by
    obtain ⟨b, hb, hd⟩ := hreg
    exact ⟨_, List.mem_map.mpr ⟨b, hb, rfl⟩, hd⟩
  obtain ⟨r', hr', hsame, hdur⟩ := summary_row ht ht' hreg' hr (by rw [hm]; exact hf)
  rw [← et'] at hr'
  obtain ⟨⟨r'', cols'⟩, ho', rfl⟩ := List.mem_map.mp hr'
  refine ⟨_, ho', hsame, ?_, by rw [hm] at hdur; exact hdur⟩
  rw [(hcols' _ _ ho').2, (hcols _ _ ho).2]
  have ec : r''.cycle = r.cycle := hsame.2.1
  have hrows : SummaryFull.cycleRows (raw ++ more) r.cycle = SummaryFull.cycleRows raw r.cycle := by
    unfold SummaryFull.cycleRows
    rw [List.filter_append]
    have : more.filter (fun x => decide (x.cycle = r.cycle)) = [] := by
      rw [List.filter_eq_nil_iff]
      intro x hx
      have h1 : r.cycle < x.cycle := hf x.cycle (List.mem_map.mpr ⟨x, hx, rfl⟩)
      simp only [decide_eq_true_eq]; omega
    rw [this, List.append_nil]
  simp only [ec]
  unfold SummaryFull.byLabel
  rw [hrows]

/-- two records of a cycle: charged to 1.1 Ah after 100 s, discharged by 1.1 Ah -/
def cyc (c : Int) (t : Rat) : List SummaryFull.Raw :=
  [⟨c, some 1, t, 2, 1, 0, some 0, some 0, some 0, none, none, t⟩,
   ⟨c, some 1, t + 100, 4, 1, 11/10, some (11/10), some 4, some 4, none, none, t + 100⟩]

theorem of_map {α β : Type} {x : Except Err α} {f : α → β} {y : β} (h : x.map f = .ok y) :
    ∃ a, x = .ok a ∧ f a = y := by
  cases x with
  | error e => cases h
  | ok a => cases h; exact ⟨a, rfl, rfl⟩

/-- non-vacuity of `C153_summary_partial`: two cycles numbered from 0, then a third one -/
example : ∃ s s', SummaryFull.summarize {} none false (cyc 0 0 ++ cyc 1 200) = .ok s ∧ s.length = 2 ∧
    SummaryFull.summarize {} none false ((cyc 0 0 ++ cyc 1 200) ++ cyc 2 400) = .ok s' ∧
    (∃ b ∈ cyc 2 400, b.cycle ∉ (none : Option (List Int)).getD []) ∧
    (∀ o ∈ s, Finished ((cyc 2 400).map SummaryFull.Raw.cycle) o.1.cycle ∧
      NoGap ((cyc 0 0 ++ cyc 1 200).map SummaryFull.Raw.cycle) o.1.cycle ∧ o.1.duration = some 100) := by
  have h1 : (SummaryFull.summarize {} none false (cyc 0 0 ++ cyc 1 200)).map
      (fun s => s.map (fun o => (o.1.cycle, o.1.duration))) = .ok [(0, some 100), (1, some 100)] := by decide +kernel
  have h2 : (SummaryFull.summarize {} none false ((cyc 0 0 ++ cyc 1 200) ++ cyc 2 400)).map
      (fun s => s.map (fun o => o.1.cycle)) = .ok [0, 1, 2] := by decide +kernel
  obtain ⟨s, e1, g1⟩ := of_map h1
  obtain ⟨s', e2, g2⟩ := of_map h2
  refine ⟨s, s', e1, by simpa using congrArg List.length g1, e2,
    ⟨_, List.mem_of_getElem? (i := 0) rfl, List.not_mem_nil⟩, ?_⟩
  intro o ho
  have hm : (o.1.cycle, o.1.duration) ∈ s.map (fun o => (o.1.cycle, o.1.duration)) := List.mem_map.mpr ⟨o, ho, rfl⟩
  rw [g1] at hm
  have hc : (o.1.cycle = 0 ∨ o.1.cycle = 1) ∧ o.1.duration = some 100 := by
    simp only [List.mem_cons, Prod.mk.injEq, List.not_mem_nil, or_false] at hm
    rcases hm with ⟨e, d⟩ | ⟨e, d⟩
    · exact ⟨Or.inl e, d⟩
    · exact ⟨Or.inr e, d⟩
  refine ⟨?_, ?_, hc.2⟩
  · intro b hb
    have e : (cyc 2 400).map SummaryFull.Raw.cycle = [2, 2] := rfl
    rw [e] at hb
    have : b = 2 := by simpa using hb
    omega
  · intro k h1 h2
    have : k = 0 ∨ k = 1 := by omega
    rcases this with e | e <;> subst e <;> decide

/-- C153 fails for the charge duration when the cycles are numbered from 1: the cycle that was
last gets a value it did not have before, that of the cycle recorded after it. -/
theorem C153_duration_violated :
    (SummaryFull.summarize {} none false (cyc 1 0 ++ cyc 2 200)).map
      (fun s => s.map (fun o => (o.1.cycle, o.1.duration))) = .ok [(1, some 100), (2, none)] ∧
    (SummaryFull.summarize {} none false ((cyc 1 0 ++ cyc 2 200) ++ cyc 3 400)).map
      (fun s => s.map (fun o => (o.1.cycle, o.1.duration))) = .ok [(1, some 100), (2, some 100), (3, none)] := by
  decide +kernel

/-- C153 fails when the additional data belong to a diagnostic cycle that has only begun: regular
cycles 0 and 1 are complete and in the summary, then diagnostic cycle 2 starts with a single
record, and cycle 1 is no longer in the summary. -/
theorem C153_disappears_violated :
    (SummaryFull.summarize {} (some [2]) false (cyc 0 0 ++ cyc 1 200)).map
      (fun s => s.map (fun o => o.1.cycle)) = .ok [0, 1] ∧
    (SummaryFull.summarize {} (some [2]) false ((cyc 0 0 ++ cyc 1 200) ++ (cyc 2 400).take 1)).map
      (fun s => s.map (fun o => o.1.cycle)) = .ok [0] := by
  decide +kernel

theorem mem_mapE {α β : Type} {f : α → Except Err β} {l : List α} {out : List β}
    (h : Summary.mapE f l = .ok out) {o : β} : o ∈ out ↔ ∃ a ∈ l, f a = .ok o := by
  obtain ⟨h1, h2⟩ := Summary.mapE_ok h
  constructor
  · intro ho
    obtain ⟨i, hi, e⟩ := List.getElem_of_mem ho
    have hi' := hi
    rw [h1] at hi'
    obtain ⟨b, hb, e'⟩ := h2 i _ (List.getElem?_eq_getElem hi')
    rw [List.getElem?_eq_getElem hi, e] at e'
    cases e'
    exact ⟨_, List.getElem_mem hi', hb⟩
  · rintro ⟨a, ha, e⟩
    obtain ⟨i, hi⟩ := List.getElem?_of_mem ha
    obtain ⟨b, hb, e'⟩ := h2 i a hi
    rw [e] at hb
    cases hb
    exact List.mem_of_getElem? e'

/-- C153, diagnostic summary: the row of a diagnostic cycle that was over before the additional
data began is there again, unchanged. -/
theorem C153_diagnostic (cfg : Diagnostic.Config) (hasTemp : Bool) (raw more : List SummaryFull.Raw)
    (s s' : List SummaryFull.DiagRow)
    (h : SummaryFull.summarizeDiagnostic (some cfg) hasTemp raw = .ok s)
    (h' : SummaryFull.summarizeDiagnostic (some cfg) hasTemp (raw ++ more) = .ok s') (o : SummaryFull.DiagRow)
    (hf : Finished (more.map SummaryFull.Raw.cycle) o.cycle) : o ∈ s ↔ o ∈ s' := by
  have hrows : SummaryFull.cycleRows (raw ++ more) o.cycle = SummaryFull.cycleRows raw o.cycle := by
    unfold SummaryFull.cycleRows
    rw [List.filter_append]
    have : more.filter (fun x => decide (x.cycle = o.cycle)) = [] := by
      rw [List.filter_eq_nil_iff]
      intro x hx
      have h1 : o.cycle < x.cycle := hf x.cycle (List.mem_map.mpr ⟨x, hx, rfl⟩)
      simp only [decide_eq_true_eq]; omega
    rw [this, List.append_nil]
  have key : ∀ (l : List SummaryFull.Raw) (t : List SummaryFull.DiagRow),
      SummaryFull.summarizeDiagnostic (some cfg) hasTemp l = .ok t → (o ∈ t ↔
        (o.cycle ∈ cfg.allIx ∧ ∃ r ∈ l, r.cycle = o.cycle) ∧ cfg.typeByIx.get? o.cycle = some o.cycleType ∧
          o.cols = SummaryFull.diagCols hasTemp l o.cycle) := by
    intro l t ht
    unfold SummaryFull.summarizeDiagnostic at ht
    rw [mem_mapE ht, ← SummaryFull.mem_diag]
    constructor
    · rintro ⟨c, hc, e⟩
      split at e
      · cases e
      · rename_i t' ht'
        cases e
        exact ⟨hc, ht', rfl⟩
    · rintro ⟨hc, e1, e2⟩
      refine ⟨o.cycle, hc, ?_⟩
      rw [e1]
      simp only [← e2]
  rw [key raw s h, key (raw ++ more) s' h']
  unfold SummaryFull.diagCols
  rw [hrows]
  refine and_congr_left (fun _ => and_congr_right (fun _ => ?_))
  constructor
  · rintro ⟨r, hr, e⟩; exact ⟨r, List.mem_append_left _ hr, e⟩
  · rintro ⟨r, hr, e⟩
    rcases List.mem_append.mp hr with g | g
    · exact ⟨r, g, e⟩
    · have h1 : o.cycle < r.cycle := hf r.cycle (List.mem_map.mpr ⟨r, g, rfl⟩)
      omega

/-- non-vacuity of `C153_diagnostic`: diagnostic cycles 0 and 2, the second added later -/
example : ∃ cfg s s', Diagnostic.init [("reset", [0, 2])] [] = .ok cfg ∧
    SummaryFull.summarizeDiagnostic (some cfg) false (cyc 0 0 ++ cyc 1 200) = .ok s ∧ s.length = 1 ∧
    SummaryFull.summarizeDiagnostic (some cfg) false ((cyc 0 0 ++ cyc 1 200) ++ cyc 2 400) = .ok s' ∧ s'.length = 2 := by
  have h : (Diagnostic.init [("reset", [0, 2])] []).map (fun cfg =>
      ((SummaryFull.summarizeDiagnostic (some cfg) false (cyc 0 0 ++ cyc 1 200)).map List.length,
       (SummaryFull.summarizeDiagnostic (some cfg) false ((cyc 0 0 ++ cyc 1 200) ++ cyc 2 400)).map List.length)) =
      .ok (.ok 1, .ok 2) := by decide +kernel
  obtain ⟨cfg, e, g⟩ := of_map h
  obtain ⟨s, e1, g1⟩ := of_map (congrArg Prod.fst g)
  obtain ⟨s', e2, g2⟩ := of_map (congrArg Prod.snd g)
  exact ⟨cfg, s, s', e, e1, g1, e2, g2⟩

/-- C153, interpolated cycles: the interpolated rows of a cycle that was over before the
additional data began stay the same, provided a step that is resampled along a capacity (the
usual axis of a charge) is given no capacities outside those seen before, and the additional
data do not change whether the regular cycles contain a waveform step. -/
theorem C153_interpolated_partial (raw more : List Steps.Row) (indet : Bool) (diag : Option (List Int))
    (vRange : Option (Rat × Rat)) (n : Nat) (chargeAxis dischargeAxis : String) (exclude : List Int)
    (wfDchg wfChg : Bool) (out out' : List Interp.OutRow)
    (h : Interp.interpolateCycles raw indet diag vRange n chargeAxis dischargeAxis exclude wfDchg wfChg = .ok out)
    (h' : Interp.interpolateCycles (raw ++ more) indet diag vRange n chargeAxis dischargeAxis exclude wfDchg wfChg =
      .ok out')
    (hw : ∀ axis, axis = chargeAxis ∨ axis = dischargeAxis →
      axis = "charge_capacity" ∨ axis = "discharge_capacity" → Within axis raw more)
    (c : Int) (hf : Finished (more.map Steps.Row.cycle) c) :
    out'.filter (fun r => decide (r.cycle = c)) = out.filter (fun r => decide (r.cycle = c)) := by
  have hreg : (c ∈ unique ((match diag with
        | some ix => raw.filter (fun r : Steps.Row => !ix.contains r.cycle)
        | none => raw).map Steps.Row.cycle)) ↔
      c ∈ unique ((match diag with
        | some ix => (raw ++ more).filter (fun r : Steps.Row => !ix.contains r.cycle)
        | none => raw ++ more).map Steps.Row.cycle) := by
    have hm : ∀ r ∈ more, r.cycle ≠ c := by
      intro r hr e
      have := hf r.cycle (List.mem_map.mpr ⟨r, hr, rfl⟩)
      omega
    rw [mem_unique, mem_unique, List.mem_map, List.mem_map]
    cases diag with
    | none =>
      constructor
      · rintro ⟨r, hr, e⟩; exact ⟨r, List.mem_append_left _ hr, e⟩
      · rintro ⟨r, hr, e⟩
        rcases List.mem_append.mp hr with g | g
        · exact ⟨r, g, e⟩
        · exact absurd e (hm r g)
    | some ix =>
      simp only [List.filter_append]
      constructor
      · rintro ⟨r, hr, e⟩; exact ⟨r, List.mem_append_left _ hr, e⟩
      · rintro ⟨r, hr, e⟩
        rcases List.mem_append.mp hr with g | g
        · exact ⟨r, g, e⟩
        · exact absurd e (hm r (List.mem_filter.mp g).1)
  unfold Interp.interpolateCycles at h h'
  simp only at h h'
  split at h
  · cases h
  rename_i d hd
  split at h
  · cases h
  rename_i ch hch
  cases h
  split at h'
  · cases h'
  rename_i d' hd'
  split at h'
  · cases h'
  rename_i ch' hch'
  cases h'
  have e1 := interpolateStep_more hd hd' hf hreg (fun ha => by
    by_cases hb : wfDchg = true
    · rw [if_pos hb] at ha
      exact absurd ha (by decide)
    · rw [if_neg hb] at ha ⊢
      exact hw _ (Or.inr rfl) ha)
  have e2 := interpolateStep_more hch hch' hf hreg (fun ha => by
    by_cases hb : wfChg = true
    · rw [if_pos hb] at ha
      exact absurd ha (by decide)
    · rw [if_neg hb] at ha ⊢
      exact hw _ (Or.inl rfl) ha)
  rw [List.filter_append, List.filter_append, e1, e2]

/-- a charge from 0 to `q` Ah at 3 V to 3.4 V, in step 1 of cycle `c` -/
def chg (c : Int) (q : Rat) : List Steps.Row :=
  [⟨c, some 1, some 0, some 0, some 0, some 3, []⟩,
   ⟨c, some 1, some (q / 2), some 0, some 10, some (32 / 10), []⟩,
   ⟨c, some 1, some q, some 0, some 20, some (34 / 10), []⟩]

/-- non-vacuity of `C153_interpolated_partial`: a charge of 1 Ah, then a smaller one -/
example : ∃ out out', Interp.interpolateCycles (chg 0 1) true none none 3 "charge_capacity" "voltage" [] false false =
      .ok out ∧ out.length = 3 ∧
    Interp.interpolateCycles (chg 0 1 ++ chg 1 (9 / 10)) true none none 3 "charge_capacity" "voltage" [] false false =
      .ok out' ∧ out'.length = 6 ∧ Within "charge_capacity" (chg 0 1) (chg 1 (9 / 10)) ∧
    Finished ((chg 1 (9 / 10)).map Steps.Row.cycle) 0 := by
  have h1 : (Interp.interpolateCycles (chg 0 1) true none none 3 "charge_capacity" "voltage" [] false false).map
      List.length = .ok 3 := by decide +kernel
  have h2 : (Interp.interpolateCycles (chg 0 1 ++ chg 1 (9 / 10)) true none none 3 "charge_capacity" "voltage" []
      false false).map List.length = .ok 6 := by decide +kernel
  obtain ⟨s, e1, g1⟩ := of_map h1
  obtain ⟨s', e2, g2⟩ := of_map h2
  refine ⟨s, s', e1, g1, e2, g2, ?_, ?_⟩
  · intro b hb v hv
    refine ⟨_, List.mem_of_getElem? (i := 0) rfl, _, List.mem_of_getElem? (i := 2) rfl, 0, 1, rfl, rfl, ?_⟩
    have : ∀ b ∈ chg 1 (9 / 10), capacityOf "charge_capacity" b = some 0 ∨
        capacityOf "charge_capacity" b = some (9 / 20) ∨ capacityOf "charge_capacity" b = some (9 / 10) := by
      decide +kernel
    rcases this b hb with e | e | e <;> rw [e] at hv <;> cases hv <;> norm_num
  · intro b hb
    have e : (chg 1 (9 / 10)).map Steps.Row.cycle = [1, 1, 1] := rfl
    rw [e] at hb
    have : b = 1 := by simpa using hb
    omega

/-- C153 fails along a capacity when a later cycle charges more: cycle 0 was resampled at 0, 1/2
and 1 Ah, and after a charge of 2 Ah in cycle 1 it is resampled at 0, 1 and 2 Ah. -/
theorem C153_grid_violated :
    (Interp.interpolateCycles (chg 0 1) true none none 3 "charge_capacity" "voltage" [] false false).map
      (fun o => (o.filter (fun r : Interp.OutRow => decide (r.cycle = 0))).map (fun r => (r.x, r.vals[1]?))) =
        .ok [(0, some (some 3)), (1 / 2, some (some (32 / 10))), (1, some (some (34 / 10)))] ∧
    (Interp.interpolateCycles (chg 0 1 ++ chg 1 2) true none none 3 "charge_capacity" "voltage" [] false false).map
      (fun o => (o.filter (fun r : Interp.OutRow => decide (r.cycle = 0))).map (fun r => (r.x, r.vals[1]?))) =
        .ok [(0, some (some 3)), (1, some (some (34 / 10))), (2, some (some (34 / 10)))] := by
  decide +kernel

end Beep.Props.Growth
