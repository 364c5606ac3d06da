import Verif.Props.Degradation
import Verif.Proof.Threshold
/-
C93 (cells to include), C86 (validated data, degradation featurizers).
-/
namespace Beep.Props.Exclusion
open Beep Pandas Degradation Spec.Degradation
open Beep.Proof.Degradation

/-! ### forward fill -/

theorem length_ffillFrom : ∀ (last : Option Rat) (vs : List (Option Rat)), (ffillFrom last vs).length = vs.length
  | _, [] => rfl
  | _, none :: vs => by simp [ffillFrom, length_ffillFrom]
  | _, some v :: vs => by simp [ffillFrom, length_ffillFrom]

/-- the value forward fill leaves at the end of a list -/
def lastOr (last : Option Rat) : List (Option Rat) → Option Rat
  | [] => last
  | none :: vs => lastOr last vs
  | some v :: vs => lastOr (some v) vs

theorem ffillFrom_getElem : ∀ (i : Nat) (last : Option Rat) (vs : List (Option Rat)), i < vs.length →
    (ffillFrom last vs)[i]? = some (lastOr last (vs.take (i + 1)))
  | i, last, [], h => by simp at h
  | 0, last, none :: vs, _ => by simp [ffillFrom, lastOr]
  | 0, last, some v :: vs, _ => by simp [ffillFrom, lastOr]
  | i + 1, last, none :: vs, h => by
    have := ffillFrom_getElem i last vs (by simpa using h)
    simpa [ffillFrom, lastOr] using this
  | i + 1, last, some v :: vs, h => by
    have := ffillFrom_getElem i (some v) vs (by simpa using h)
    simpa [ffillFrom, lastOr] using this

theorem lastOr_append (last : Option Rat) : ∀ (a b : List (Option Rat)),
    lastOr last (a ++ b) = lastOr (lastOr last a) b := by
  intro a
  induction a generalizing last with
  | nil => intro b; rfl
  | cons x a ih =>
    intro b
    cases x with
    | none => exact ih last b
    | some v => exact ih (some v) b

theorem lastOr_none_list (last : Option Rat) : ∀ (b : List (Option Rat)), (∀ x ∈ b, x = none) → lastOr last b = last := by
  intro b
  induction b with
  | nil => intro _; rfl
  | cons x b ih =>
    intro h
    rw [h x (by simp)]
    exact ih (fun y hy => h y (List.mem_cons_of_mem _ hy))

theorem lastOr_iff (vs : List (Option Rat)) (v : Rat) : lastOr none vs = some v ↔ LastMeasured vs v := by
  constructor
  · intro h
    have key : ∀ (vs : List (Option Rat)) (last : Option Rat), lastOr last vs = some v →
        (∃ pre post, vs = pre ++ some v :: post ∧ ∀ x ∈ post, x = none) ∨ (last = some v ∧ ∀ x ∈ vs, x = none) := by
      intro vs
      induction vs with
      | nil => intro last h; exact .inr ⟨h, by simp⟩
      | cons x vs ih =>
        intro last h
        cases x with
        | none =>
          rcases ih last h with ⟨pre, post, e, hp⟩ | ⟨h1, h2⟩
          · exact .inl ⟨none :: pre, post, by rw [e]; rfl, hp⟩
          · refine .inr ⟨h1, ?_⟩
            intro y hy
            rcases List.mem_cons.1 hy with rfl | hy
            · rfl
            · exact h2 y hy
        | some w =>
          rcases ih (some w) h with ⟨pre, post, e, hp⟩ | ⟨h1, h2⟩
          · exact .inl ⟨some w :: pre, post, by rw [e]; rfl, hp⟩
          · cases h1
            exact .inl ⟨[], vs, rfl, h2⟩
    rcases key vs none h with h | ⟨h, -⟩
    · exact h
    · cases h
  · rintro ⟨pre, post, rfl, hp⟩
    rw [lastOr_append]
    exact lastOr_none_list _ _ hp

/-! ### the end of the test -/

theorem head_drop {α : Type} (l : List α) (k : Nat) : (l.drop k).head? = l[k]? := by
  rw [List.head?_drop]

/-- the fraction compared with the threshold -/
theorem eots_head (fs : List (Option Rat)) (hne : fs ≠ []) :
    (∃ x, (eots fs).head? = some x ∧ ∀ v, x = some v ↔ AtEnd fs v) ∧
    (eots fs).length ≤ 2 := by
  have hlen : 0 < fs.length := List.length_pos_iff.2 hne
  have hone : ((ffill fs).drop ((ffill fs).length - 1)).head? = some (lastOr none fs) := by
    rw [head_drop]
    unfold ffill
    rw [length_ffillFrom, ffillFrom_getElem _ _ _ (by omega)]
    congr 2
    rw [List.take_of_length_le (by omega)]
  unfold eots
  simp only [hone, Option.join_some]
  by_cases hg : gtN (lastOr none fs) 1 = true
  · rw [if_pos hg]
    obtain ⟨u, hu, hu1⟩ : ∃ u, lastOr none fs = some u ∧ 1 < u := by
      cases h : lastOr none fs with
      | none => rw [h] at hg; cases hg
      | some u => rw [h] at hg; exact ⟨u, rfl, by simpa [gtN] using hg⟩
    have huniq : ∀ w, LastMeasured fs w → w = u := by
      intro w hw
      have := (lastOr_iff fs w).2 hw
      rw [hu] at this
      exact (Option.some.inj this).symm
    constructor
    · rw [head_drop]
      unfold ffill
      rw [length_ffillFrom, ffillFrom_getElem _ _ _ (by omega)]
      refine ⟨_, rfl, fun v => ?_⟩
      by_cases h1 : fs.length = 1
      · rw [List.take_of_length_le (by omega), hu]
        constructor
        · intro e
          cases e
          exact ⟨u, (lastOr_iff _ _).1 hu, .inr (.inl ⟨hu1, h1, rfl⟩)⟩
        · rintro ⟨w, hw, h⟩
          rw [huniq w hw] at h
          rcases h with ⟨hle, rfl⟩ | ⟨_, _, rfl⟩ | ⟨_, h2, _⟩
          · rfl
          · rfl
          · omega
      · have : fs.take (fs.length - 2 + 1) = fs.dropLast := by
          rw [List.dropLast_eq_take]
          congr 1
          omega
        rw [this, lastOr_iff]
        constructor
        · intro hv
          exact ⟨u, (lastOr_iff _ _).1 hu, .inr (.inr ⟨hu1, by omega, hv⟩)⟩
        · rintro ⟨w, hw, h⟩
          rw [huniq w hw] at h
          rcases h with ⟨hle, _⟩ | ⟨_, h2, _⟩ | ⟨_, _, hv⟩
          · linarith
          · omega
          · exact hv
    · unfold ffill
      rw [List.length_drop, length_ffillFrom]
      omega
  · rw [if_neg hg]
    constructor
    · refine ⟨_, hone, fun v => ?_⟩
      have hle : ∀ u, lastOr none fs = some u → u ≤ 1 := by
        intro u hu
        rw [hu] at hg
        by_contra hc
        exact hg (by simpa [gtN] using hc)
      constructor
      · intro e
        exact ⟨v, (lastOr_iff _ _).1 e, .inl ⟨hle v e, rfl⟩⟩
      · rintro ⟨w, hw, h⟩
        have hw' := (lastOr_iff _ _).2 hw
        have := hle w hw'
        rcases h with ⟨_, rfl⟩ | ⟨h, _⟩ | ⟨h, _⟩
        · exact hw'
        · linarith
        · linarith
    · unfold ffill
      rw [List.length_drop, length_ffillFrom]
      omega

theorem ltN_iff (x : Option Rat) (t : Rat) : ltN x t = true ↔ ∃ v, x = some v ∧ v < t := by
  cases x with
  | none => simp [ltN]
  | some v => simp [ltN]

theorem gtN_iff (x : Option Rat) (t : Rat) : gtN x t = true ↔ ∃ v, x = some v ∧ t < v := by
  cases x with
  | none => simp [gtN]
  | some v => simp [gtN]

theorem lastMeasured_mem {fs : List (Option Rat)} {v : Rat} (h : LastMeasured fs v) : some v ∈ fs := by
  obtain ⟨pre, post, rfl, -⟩ := h
  simp

theorem atEnd_mem {fs : List (Option Rat)} {v : Rat} (h : AtEnd fs v) : some v ∈ fs := by
  obtain ⟨u, hu, ⟨_, rfl⟩ | ⟨_, _, rfl⟩ | ⟨_, _, hv⟩⟩ := h
  · exact lastMeasured_mem hu
  · exact lastMeasured_mem hu
  · exact List.dropLast_subset _ (lastMeasured_mem hv)

theorem firstBelow_iff (rows : List NxRow) (thr : Rat) (o : NxRow) :
    rows.find? (fun r => ltN r.fraction thr) = some o ↔ FirstBelow rows thr o := by
  rw [List.find?_eq_some_iff_append]
  unfold FirstBelow
  simp only [ltN_iff, Bool.not_eq_true', ← Bool.not_eq_true]
  constructor
  · rintro ⟨h, pre, post, e, hp⟩
    exact ⟨pre, post, e, h, hp⟩
  · rintro ⟨pre, post, e, h, hp⟩
    exact ⟨h, pre, post, e, hp⟩

/-! ### early constant voltage -/

theorem cv_nil : Segments.cvSegment {} [] = [] := rfl

theorem noEarly_iff (f : Rat) (data : List DataRow) : ∀ (cs : List Int) (b : Bool), noEarly f data cs = .ok b →
    (b = true ↔ ∀ c ∈ cs, ¬ EarlyCV f data c)
  | [], b, h => by
    cases h
    simp
  | c :: cs, b, h => by
    unfold noEarly at h
    simp only at h
    split at h
    · cases h
    · rename_i r hr
      have hfil : ((data.filter (fun r => r.cycle = c)).filter (fun r => r.stepType = "charge"))
          = data.filter (fun d => d.cycle = c ∧ d.stepType = "charge") := by
        rw [List.filter_filter]
        apply List.filter_congr
        intro d _
        simp [Bool.and_comm]
      have hne : ((data.filter (fun r => r.cycle = c)).map (fun r => r.seg.time)) ≠ [] := by
        intro e
        rw [List.map_eq_nil_iff] at e
        rw [e, List.filter_nil, List.map_nil, cv_nil] at hr
        cases hr
      rw [hfil] at hr
      have h0 := Proof.Threshold.minR_spec hne
      have h1 := Proof.Threshold.maxR_spec hne
      set t0 := minR ((data.filter (fun r => r.cycle = c)).map (fun r => r.seg.time)) with ht0
      set t1 := maxR ((data.filter (fun r => r.cycle = c)).map (fun r => r.seg.time)) with ht1
      have hall : ∀ d ∈ data, d.cycle = c → t0 ≤ d.seg.time ∧ d.seg.time ≤ t1 := by
        intro d hd hc
        have hm : d.seg.time ∈ (data.filter (fun r => r.cycle = c)).map (fun r => r.seg.time) :=
          List.mem_map.2 ⟨d, List.mem_filter.2 ⟨hd, by simpa using hc⟩, rfl⟩
        exact ⟨h0.2 _ hm, h1.2 _ hm⟩
      have hex : ∀ t ∈ (data.filter (fun r => r.cycle = c)).map (fun r => r.seg.time), ∃ d ∈ data, d.cycle = c ∧ d.seg.time = t := by
        intro t ht
        obtain ⟨d, hd, e⟩ := List.mem_map.1 ht
        rw [List.mem_filter] at hd
        exact ⟨d, hd.1, by simpa using hd.2, e⟩
      have e0 := hex _ h0.1
      have e1 := hex _ h1.1
      by_cases heq : t1 = t0
      · simp [heq] at h
      · rw [if_neg heq] at h
        have hlt : 0 < t1 - t0 := by
          obtain ⟨d, hd, hc, e⟩ := e0
          have := (hall d hd hc).2
          rw [e] at this
          rcases lt_or_eq_of_le this with h | h
          · linarith
          · exact absurd h.symm heq
        have hearly : EarlyCV f data c ↔ (r.time - t0) / (t1 - t0) < f := by
          rw [div_lt_iff₀ hlt]
          constructor
          · rintro ⟨r', a, b, hr', ⟨da, hda, hca, ea⟩, ha, ⟨db, hdb, hcb, eb⟩, hb, hlt'⟩
            rw [hr] at hr'
            cases hr'
            have ea' : a = t0 := by
              obtain ⟨d, hd, hc, e⟩ := e0
              apply le_antisymm
              · rw [← e]; exact ha d hd hc
              · rw [← ea]; exact (hall da hda hca).1
            have eb' : b = t1 := by
              obtain ⟨d, hd, hc, e⟩ := e1
              apply le_antisymm
              · rw [← eb]; exact (hall db hdb hcb).2
              · rw [← e]; exact hb d hd hc
            rw [ea', eb'] at hlt'
            linarith
          · intro hlt'
            exact ⟨r, t0, t1, hr, e0, fun d hd hc => (hall d hd hc).1, e1, fun d hd hc => (hall d hd hc).2, by linarith⟩
        by_cases hf : (r.time - t0) / (t1 - t0) < f
        · rw [if_pos hf] at h
          cases h
          simp only [Bool.false_eq_true, false_iff]
          intro hall'
          exact hall' c (by simp) (hearly.2 hf)
        · rw [if_neg hf] at h
          rw [noEarly_iff f data cs b h]
          simp only [List.mem_cons, forall_eq_or_imp, hearly, hf, not_false_iff, true_and]

/-! ### equivalent full cycles -/

theorem through_at (reg : List RegRow) (hnd : (reg.map RegRow.cycle).Nodup) (pre post : List RegRow) (q : RegRow)
    (e : reg = pre ++ q :: post) :
    (((reg.map RegRow.cycle).zip (ffill (reg.map (fun r => r.val "charge_throughput")))).filter
      (fun p => some p.1 = some q.cycle)).map Prod.snd
      = [lastOr none ((pre ++ [q]).map (fun r => r.val "charge_throughput"))] := by
  have hlen : (ffill (reg.map (fun r => r.val "charge_throughput"))).length = reg.length := by
    unfold ffill
    rw [length_ffillFrom, List.length_map]
  obtain ⟨A, x, B, hAB, hlA⟩ : ∃ A x B, ffill (reg.map (fun r => r.val "charge_throughput")) = A ++ x :: B ∧ A.length = pre.length := by
    have hlt : pre.length < (ffill (reg.map (fun r => r.val "charge_throughput"))).length := by
      rw [hlen, e]
      simp
    refine ⟨(ffill (reg.map (fun r => r.val "charge_throughput"))).take pre.length, _, _,
      (List.take_append_drop pre.length _).symm.trans (by rw [List.drop_eq_getElem_cons hlt]), ?_⟩
    rw [List.length_take]
    omega
  have hx : x = lastOr none ((pre ++ [q]).map (fun r => r.val "charge_throughput")) := by
    have h1 : (ffill (reg.map (fun r => r.val "charge_throughput")))[pre.length]? = some x := by
      rw [hAB, ← hlA]
      simp
    unfold ffill at h1
    rw [ffillFrom_getElem _ _ _ (by rw [e]; simp)] at h1
    rw [← Option.some.inj h1]
    congr 1
    rw [e, ← List.map_take]
    congr 1
    simp [List.take_append]
  rw [hAB, e, List.map_append, List.map_cons, List.zip_append (by rw [List.length_map, hlA]), List.zip_cons_cons,
    List.filter_append, List.filter_cons]
  rw [e, List.map_append, List.map_cons, List.nodup_append] at hnd
  obtain ⟨-, h2, h3⟩ := hnd
  rw [List.nodup_cons] at h2
  have hA : ((pre.map RegRow.cycle).zip A).filter (fun p => some p.1 = some q.cycle) = [] := by
    rw [List.filter_eq_nil_iff]
    intro p hp
    have := List.of_mem_zip hp
    simp only [Option.some.injEq, decide_eq_true_eq]
    intro heq
    exact h3 p.1 this.1 q.cycle (by simp) heq
  have hB : ((post.map RegRow.cycle).zip B).filter (fun p => some p.1 = some q.cycle) = [] := by
    rw [List.filter_eq_nil_iff]
    intro p hp
    have := List.of_mem_zip hp
    simp only [Option.some.injEq, decide_eq_true_eq]
    intro heq
    exact h2.1 (heq ▸ this.1)
  rw [hA, hB]
  simp [hx]

theorem efc_eq (reg : List RegRow) (hnd : (reg.map RegRow.cycle).Nodup) (c : Int) (hex : ∃ r ∈ reg, r.cycle ≤ c) :
    ∃ x, (((reg.map RegRow.cycle).zip (ffill (reg.map (fun r => r.val "charge_throughput")))).filter
      (fun p => some p.1 = maxCycle ((reg.filter (fun r => decide (r.cycle ≤ c))).map RegRow.cycle))).map Prod.snd = [x] ∧
      ∀ v, x = some v ↔ ThroughputAt reg c v := by
  cases hm : maxCycle ((reg.filter (fun r => decide (r.cycle ≤ c))).map RegRow.cycle) with
  | none =>
    rw [maxCycle_none, List.map_eq_nil_iff, List.filter_eq_nil_iff] at hm
    obtain ⟨r, hr, hle⟩ := hex
    exact absurd (decide_eq_true_iff.2 hle) (hm r hr)
  | some m =>
    obtain ⟨hmem, hmax⟩ := maxCycle_some _ _ hm
    obtain ⟨q, hq, rfl⟩ := List.mem_map.1 hmem
    rw [List.mem_filter, decide_eq_true_eq] at hq
    have hle : ∀ r ∈ reg, r.cycle ≤ c → r.cycle ≤ q.cycle := by
      intro r hr hrc
      exact hmax _ (List.mem_map.2 ⟨r, List.mem_filter.2 ⟨hr, decide_eq_true_iff.2 hrc⟩, rfl⟩)
    obtain ⟨pre, post, e⟩ := List.append_of_mem hq.1
    refine ⟨_, through_at reg hnd pre post q e, fun v => ?_⟩
    rw [lastOr_iff]
    constructor
    · intro hv
      exact ⟨pre, q, post, e, hq.2, hle, hv⟩
    · rintro ⟨pre', q', post', e', hq', hle', hv⟩
      have hqq : q'.cycle = q.cycle :=
        le_antisymm (hle q' (by rw [e']; simp) hq') (hle' q hq.1 hq.2)
      have hpre : pre'.length = pre.length := by
        have g1 : (reg.map RegRow.cycle)[pre'.length]? = some q.cycle := by
          rw [e', List.getElem?_map]
          simp [hqq]
        have g2 : (reg.map RegRow.cycle)[pre.length]? = some q.cycle := by
          rw [e, List.getElem?_map]
          simp
        exact (List.getElem?_inj (List.getElem?_eq_some_iff.1 g1).1 hnd).1 (g1.trans g2.symm)
      have := List.append_inj (e'.symm.trans e) hpre
      obtain ⟨rfl, h2⟩ := this
      cases h2
      exact hv

/-! ### C93 -/

/-- what a successful call has computed -/
theorem exclusion_ok {h : EHyper} {reg : List RegRow} {diag : List DiagRow} {data : List DataRow} {out : List ERow}
    (hr : exclusion h reg diag data = .ok out) :
    ∃ rows cut notEarly, nx reg diag h.eolQuantity h.eolType h.start h.interval = .ok rows ∧
      cutoffCycle h.eolThreshold (ltN ((eots (rows.map NxRow.fraction)).head?.join) h.eolThreshold) rows = some cut ∧
      (if h.cc1 ≤ h.cc2 then .ok true
          else noEarly h.earlyCV data ((reg.filter (fun r => decide (r.cycle ≤ cut))).map RegRow.cycle)) = Except.ok (ε := Err) notEarly ∧
      out = (List.range (if ((reg.filter (fun r => r.label = h.n)).map (fun r => (r.val "charge_throughput").getD 0)).isEmpty
          then (eots (rows.map NxRow.fraction)).length
          else ((reg.filter (fun r => r.label = h.n)).map (fun r => (r.val "charge_throughput").getD 0)).length)).map (fun i =>
            let first := (reg.filter (fun r => r.label = h.n)).map (fun r => (r.val "charge_throughput").getD 0)
            let eot := eots (rows.map NxRow.fraction)
            let efc := (((reg.map RegRow.cycle).zip (ffill (reg.map (fun r => r.val "charge_throughput")))).filter
              (fun p => some p.1 = maxCycle ((reg.filter (fun r => decide (r.cycle ≤ cut))).map RegRow.cycle))).map Prod.snd
            let a := (first[i]?).map (fun v => decide (v > h.cutoff))
            let b := (eot[i]?).map (fun v => ltN v h.eolThreshold)
            let e := (efc[i]?).join.map (fun v => v / h.nominal)
            let c := (efc[i]?).map (fun _ => gtN e h.efcCutoff)
            ⟨first[i]?, a, (eot[i]?).join, b, e, c, notEarly, truthy a && truthy b && truthy c && notEarly⟩) := by
  unfold exclusion at hr
  simp only at hr
  split at hr
  · cases hr
  · rename_i rows hrows
    split at hr
    · cases hr
    · rename_i cut hcut
      by_cases hz : h.nominal = 0 ∧ (((reg.map RegRow.cycle).zip (ffill (reg.map (fun r => r.val "charge_throughput")))).filter
              (fun p => some p.1 = maxCycle ((reg.filter (fun r => decide (r.cycle ≤ cut))).map RegRow.cycle))).map Prod.snd ≠ []
      · rw [if_pos hz] at hr
        cases hr
      · rw [if_neg hz] at hr
        split at hr
        · cases hr
        · rename_i b hb
          exact ⟨rows, cut, b, hrows, hcut, hb, (Except.ok.inj hr).symm⟩

/-- **C93**: a cell with a summary row for cycle `n`, whose summary begins before the first diagnostic, is
included exactly if its throughput up to `n`, its remaining fraction, its equivalent full cycles and its
charges meet the criteria.  Missing: cells without a row for cycle `n` (violated). -/
theorem C93_include_partial (h : EHyper) (reg : List RegRow) (diag : List DiagRow) (data : List DataRow)
    (rows : List NxRow) (out : List ERow) (hr : exclusion h reg diag data = .ok out)
    (hrows : nx reg diag h.eolQuantity h.eolType h.start h.interval = .ok rows)
    (hcycles : (reg.map RegRow.cycle).Nodup) (hlabels : (reg.map RegRow.label).Nodup)
    (rn : RegRow) (hrn : rn ∈ reg) (hn : rn.label = h.n)
    (hstart : ∃ r ∈ reg, ∀ o ∈ rows, r.cycle ≤ o.cycle) :
    ∃ o, out = [o] ∧
      (o.toInclude = true ↔
        h.cutoff < (rn.val "charge_throughput").getD 0 ∧
        (∃ v, AtEnd (rows.map NxRow.fraction) v ∧ v < h.eolThreshold) ∧
        ∃ eol, FirstBelow rows h.eolThreshold eol ∧
          (∃ x, ThroughputAt reg eol.cycle x ∧ h.efcCutoff < x / h.nominal) ∧
          (h.cc1 ≤ h.cc2 ∨ ∀ r ∈ reg, r.cycle ≤ eol.cycle → ¬ EarlyCV h.earlyCV data r.cycle)) := by
  obtain ⟨rows', cut, notEarly, hrows', hcut, hne, rfl⟩ := exclusion_ok hr
  rw [hrows] at hrows'
  cases hrows'
  have hrne : rows ≠ [] := by
    obtain ⟨g, l, p, -, -, -, hne', rfl⟩ := Props.Degradation.nx_ok hrows
    intro e
    exact hne' (List.map_eq_nil_iff.1 e)
  have hfirst : reg.filter (fun r => r.label = h.n) = [rn] := by
    obtain ⟨pre, post, e⟩ := List.append_of_mem hrn
    rw [e, List.map_append, List.map_cons, List.nodup_append] at hlabels
    obtain ⟨-, h2, h3⟩ := hlabels
    rw [List.nodup_cons] at h2
    rw [e, List.filter_append, List.filter_cons]
    have hA : pre.filter (fun r => r.label = h.n) = [] := by
      rw [List.filter_eq_nil_iff]
      intro r hr
      simp only [decide_eq_true_eq]
      intro e'
      exact h3 r.label (List.mem_map.2 ⟨r, hr, rfl⟩) rn.label (by simp) (e'.trans hn.symm)
    have hB : post.filter (fun r => r.label = h.n) = [] := by
      rw [List.filter_eq_nil_iff]
      intro r hr
      simp only [decide_eq_true_eq]
      intro e'
      exact h2.1 (List.mem_map.2 ⟨r, hr, e'.trans hn.symm⟩)
    rw [hA, hB]
    simp [hn]
  have hfne : rows.map NxRow.fraction ≠ [] := by simpa using hrne
  obtain ⟨⟨x, hx, hxv⟩, -⟩ := eots_head _ hfne
  have hcutmem : ∃ o ∈ rows, o.cycle = cut := by
    unfold cutoffCycle at hcut
    split at hcut
    · rw [Option.map_eq_some_iff] at hcut
      obtain ⟨o, ho, e⟩ := hcut
      exact ⟨o, List.mem_of_find?_eq_some ho, e⟩
    · rw [Option.map_eq_some_iff] at hcut
      obtain ⟨o, ho, e⟩ := hcut
      exact ⟨o, List.mem_of_getLast? ho, e⟩
  obtain ⟨y, hy, hyv⟩ := efc_eq reg hcycles cut (by
    obtain ⟨r, hrm, hall⟩ := hstart
    obtain ⟨o, ho, rfl⟩ := hcutmem
    exact ⟨r, hrm, hall o ho⟩)
  have hx0 : (eots (rows.map NxRow.fraction))[0]? = some x := by
    rw [← List.head?_eq_getElem?]
    exact hx
  simp only [hfirst, hy, List.map_cons, List.map_nil, List.isEmpty_cons, Bool.false_eq_true, if_false, List.length_cons,
    List.length_nil, Nat.zero_add, List.range_one]
  refine ⟨_, rfl, ?_⟩
  simp only [List.getElem?_cons_zero, hx0, Option.map_some, truthy, Option.join_some, Bool.and_eq_true, decide_eq_true_eq]
  rw [hx] at hcut
  simp only [Option.join_some] at hcut
  have hbelow : ltN x h.eolThreshold = true ↔ ∃ v, AtEnd (rows.map NxRow.fraction) v ∧ v < h.eolThreshold := by
    rw [ltN_iff]
    simp only [hxv]
  have hefc : gtN (y.map (fun v => v / h.nominal)) h.efcCutoff = true ↔
      ∃ v, ThroughputAt reg cut v ∧ h.efcCutoff < v / h.nominal := by
    rw [gtN_iff]
    constructor
    · rintro ⟨v, hv, hlt⟩
      rw [Option.map_eq_some_iff] at hv
      obtain ⟨w, hw, rfl⟩ := hv
      exact ⟨w, (hyv w).1 hw, hlt⟩
    · rintro ⟨v, hv, hlt⟩
      exact ⟨_, by rw [(hyv v).2 hv]; rfl, hlt⟩
  have hcv : notEarly = true ↔ (h.cc1 ≤ h.cc2 ∨ ∀ r ∈ reg, r.cycle ≤ cut → ¬ EarlyCV h.earlyCV data r.cycle) := by
    by_cases hc : h.cc1 ≤ h.cc2
    · rw [if_pos hc] at hne
      cases hne
      simp [hc]
    · rw [if_neg hc] at hne
      rw [noEarly_iff _ _ _ _ hne]
      simp only [hc, false_or, List.mem_map, List.mem_filter, decide_eq_true_eq]
      constructor
      · intro hall r hr hle
        exact hall _ ⟨r, ⟨hr, hle⟩, rfl⟩
      · rintro hall _ ⟨r, ⟨hr, hle⟩, rfl⟩
        exact hall r hr hle
  have heol : ltN x h.eolThreshold = true → ∃ eol, FirstBelow rows h.eolThreshold eol ∧ eol.cycle = cut := by
    intro hb
    unfold cutoffCycle at hcut
    rw [if_pos hb, Option.map_eq_some_iff] at hcut
    obtain ⟨o, ho, e⟩ := hcut
    exact ⟨o, (firstBelow_iff _ _ _).1 ho, e⟩
  have huniq : ∀ o o', FirstBelow rows h.eolThreshold o → FirstBelow rows h.eolThreshold o' → o = o' := by
    intro o o' ho ho'
    have a := (firstBelow_iff _ _ _).2 ho
    have b := (firstBelow_iff _ _ _).2 ho'
    rw [a] at b
    exact Option.some.inj b
  constructor
  · rintro ⟨⟨⟨h1, h2⟩, h3⟩, h4⟩
    obtain ⟨eol, he, rfl⟩ := heol h2
    exact ⟨h1, hbelow.1 h2, eol, he, hefc.1 h3, hcv.1 h4⟩
  · rintro ⟨h1, h2, eol, he, h3, h4⟩
    obtain ⟨eol', he', rfl⟩ := heol (hbelow.2 h2)
    rw [huniq _ _ he he'] at h3 h4
    exact ⟨⟨⟨h1, hbelow.2 h2⟩, hefc.2 h3⟩, hcv.2 h4⟩

/-- **C93** fails: for a cell without a summary row for cycle `n` the throughput criterion is not applied:
whatever the cutoff, the result is the same -/
theorem C93_short_violated (h : EHyper) (reg : List RegRow) (diag : List DiagRow) (data : List DataRow)
    (hshort : ∀ r ∈ reg, r.label ≠ h.n) (cutoff : Rat) :
    exclusion { h with cutoff := cutoff } reg diag data = exclusion h reg diag data := by
  have hnil : reg.filter (fun r => r.label = h.n) = [] := by
    rw [List.filter_eq_nil_iff]
    intro r hr
    simpa using hshort r hr
  unfold exclusion
  simp [hnil]

/-! ### examples -/

/-- charge throughput 4.5 Ah per cycle -/
def regRow (c : Int) : RegRow :=
  ⟨c, c, fun q => if q = "charge_throughput" then some (9 / 2 * c) else if q = "discharge_capacity" then some (9 / 2) else none⟩

def diagRow (c : Int) (v : Rat) : DiagRow :=
  ⟨c, "rpt_0.2C", some c, fun q => if q = "discharge_capacity" then some v else none⟩

def regs (k : Nat) : List RegRow := (List.range k).map (fun i : Nat => regRow i)
def diags (a b : Int) : List DiagRow := [diagRow 1 5, diagRow a (43 / 10), diagRow b 3]

/-- the default hyperparameters -/
def hyper : EHyper :=
  { n := 30, cutoff := 20, eolType := "rpt_0.2C", eolThreshold := 8 / 10, eolQuantity := "discharge_capacity",
    efcCutoff := 30, earlyCV := 3 / 10, nominal := 45 / 10, cc1 := 1, cc2 := 2, start := 30, interval := 100 }

/-- a cell that is included: end of life at cycle 7, seven equivalent full cycles -/
example : ((exclusion { hyper with n := 5, efcCutoff := 6 } (regs 9) (diags 4 7) []).toOption.map (·.map ERow.toInclude))
    = some [true] := by decide +kernel

example : ((nx (regs 9) (diags 4 7) hyper.eolQuantity hyper.eolType hyper.start hyper.interval).toOption.map
      (·.map (fun o => (o.cycle, o.fraction)))) = some [(1, some 1), (4, some (43 / 50)), (7, some (3 / 5))] ∧
    (∃ r ∈ regs 9, r.label = 5) ∧ ((regs 9).map RegRow.cycle).Nodup ∧ ((regs 9).map RegRow.label).Nodup := by decide +kernel

/-- a cell that ended after nine cycles and passed 36 Ah is included although more than 100 Ah in the first 30
cycles are asked for -/
example : ((exclusion { hyper with cutoff := 100, efcCutoff := 6 } (regs 9) (diags 4 7) []).toOption.map (·.map ERow.toInclude))
    = some [true] := by decide +kernel

/-! ### C86 -/

/-- **C86** fails for the degradation featurizers: they accept whatever has a diagnostic summary, but without
an interruption of the regular cycles both stop with an error, whatever the hyperparameters -/
theorem C86_degradation_violated (reg : List RegRow) (diag : List DiagRow) (ho : InOrder reg) (hne : diag ≠ [])
    (hno : ¬ ∃ c, EndsFirstRun reg diag c) :
    (∀ h data, ∃ e, exclusion h reg diag data = .error e) ∧
    ∀ quantities start interval, quantities ≠ [] → ∃ e, frame reg diag quantities start interval = .error e := by
  have hnx : ∀ metric type start interval, ∃ e, nx reg diag metric type start interval = .error e := by
    intro metric type start interval
    cases hx : nx reg diag metric type start interval with
    | error e => exact ⟨e, rfl⟩
    | ok out => exact absurd ((Props.Degradation.C90_accepts reg diag metric type start interval ho).1 ⟨out, hx⟩).1 hno
  constructor
  · intro h data
    obtain ⟨e, he⟩ := hnx h.eolQuantity h.eolType h.start h.interval
    exact ⟨e, by simp [exclusion, he]⟩
  · intro quantities start interval hq
    obtain ⟨q, qs, rfl⟩ := List.exists_cons_of_ne_nil hq
    obtain ⟨d, ds, rfl⟩ := List.exists_cons_of_ne_nil hne
    obtain ⟨e, he⟩ := hnx q d.type start interval
    refine ⟨e, ?_⟩
    unfold frame
    obtain ⟨ts, hts⟩ : ∃ ts, unique ((d :: ds).map DiagRow.type) = d.type :: ts := ⟨_, rfl⟩
    rw [hts]
    simp [Interp.collect, he]

example : InOrder [regRow 1, regRow 2, regRow 3] ∧ ¬ ∃ c, EndsFirstRun [regRow 1, regRow 2, regRow 3] [diagRow 0 5] c := by
  constructor
  · unfold InOrder
    decide +kernel
  · rintro ⟨c, ⟨r, hr, -, rfl⟩, ⟨s, hs, -, hlt⟩, hnext, -⟩
    have key : ∀ k ∈ [regRow 1, regRow 2, regRow 3], Regular [diagRow 0 5] k := by decide +kernel
    simp only [List.mem_cons, List.not_mem_nil, or_false] at hr hs
    have h2 := hnext (regRow 2) (by simp) (key _ (by simp))
    have h3 := hnext (regRow 3) (by simp) (key _ (by simp))
    simp only [regRow] at h2 h3
    rcases hr with rfl | rfl | rfl <;> rcases hs with rfl | rfl | rfl <;> simp [regRow] at h2 h3 hlt

end Beep.Props.Exclusion
