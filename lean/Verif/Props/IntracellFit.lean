import Verif.Proof.MeanNearest
/-
C132 to C134: emulating a cell without a measurement, and the error of a fit.
-/
namespace Beep.Props.IntracellFit
open Beep Pandas Beep.Intracell Beep.IntracellFit Beep.Spec.Intracell Beep.Spec.IntracellFit
open Beep.Props.Intracell
open Beep.Interp (linspace length_linspace getElem?_linspace)

/-! ### C132: a cell without a measurement -/

theorem vqAlone_inner {pe ne1 pos neg : Curve} {lli qpe qne x2 : Rat} {P N out : Curve}
    (h : vqAlone pe ne1 pos neg lli qpe qne x2 = .ok (P, N, out)) :
    ∃ em, alone pe ne1 pos neg lli qpe qne x2 = .ok (P, N, em) ∧ resampled em = .ok out := by
  unfold vqAlone at h
  cases ha : alone pe ne1 pos neg lli qpe qne x2 with
  | error e => rw [ha] at h; cases h
  | ok r =>
    obtain ⟨P', N', em'⟩ := r
    rw [ha] at h
    simp only at h
    cases hr : resampled em' with
    | error e => rw [hr] at h; cases h
    | ok out =>
      rw [hr] at h
      simp only [Except.ok.injEq, Prod.mk.injEq] at h
      obtain ⟨rfl, rfl, rfl⟩ := h
      exact ⟨em', rfl, hr⟩

/-- resampling a second time changes nothing -/
theorem vqAlone_eq {pe ne1 pos neg ne : Curve} {lli qpe qne x2 : Rat} {P N em : Curve}
    (hb : blend ne1 pos neg x2 = .ok ne) (hpe : Distinct pe) (hne : Distinct ne) (hqp : 0 < qpe) (hqn : 0 < qne)
    (hwide : ∃ r ∈ pe, ∃ s ∈ pe, r.1 ≠ s.1) (hw : ∃ p ∈ em, ∃ q ∈ em, p.1 ≠ q.1) :
    vqAlone pe ne1 pos neg lli qpe qne x2 = .ok (P, N, em) ↔ alone pe ne1 pos neg lli qpe qne x2 = .ok (P, N, em) := by
  constructor
  · intro h
    unfold vqAlone at h
    cases ha : alone pe ne1 pos neg lli qpe qne x2 with
    | error e => rw [ha] at h; cases h
    | ok r =>
      obtain ⟨P', N', em'⟩ := r
      rw [ha] at h
      simp only at h
      cases hr : resampled em' with
      | error e => rw [hr] at h; cases h
      | ok out =>
        rw [hr] at h
        simp only [Except.ok.injEq, Prod.mk.injEq] at h
        obtain ⟨rfl, rfl, rfl⟩ := h
        have hw' : ∃ p ∈ em', ∃ q ∈ em', p.1 ≠ q.1 := by
          obtain ⟨a, b, hg, hab, hout⟩ := resampled_ok hr
          obtain ⟨⟨p, hp, rfl⟩, ⟨q, hq, rfl⟩, _⟩ := (range_iff ..).1 hg
          refine ⟨p, (present_mem.1 hp).1, q, (present_mem.1 hq).1, ?_⟩
          intro he
          obtain ⟨s, hs, t, ht, hst⟩ := hw
          rw [hout] at hs ht
          obtain ⟨x, hx, rfl⟩ := List.mem_map.1 hs
          obtain ⟨y, hy, rfl⟩ := List.mem_map.1 ht
          rw [← he] at hx hy
          have h1 := IntracellFeatures.linspace_le (le_refl p.1) hx
          have h2 := IntracellFeatures.linspace_le (le_refl p.1) hy
          exact hst (by rw [le_antisymm h1.2 h1.1, le_antisymm h2.2 h2.1])
        have := (self_match hb hpe hne hqp hqn hwide ha hw').2.1
        rw [hr] at this
        rw [Except.ok.inj this]
  · intro h
    unfold vqAlone
    rw [h]
    simp only
    rw [(self_match hb hpe hne hqp hqn hwide h hw).2.1]

/-- A cell emulated without a measurement: its electrodes are the pristine ones at the capacities asked for, counted from
the point at which the full cell has its lowest voltage within 2.7 V and 4.2 V; its profile is on 1001 evenly spaced
capacities over exactly the rows within the limits, follows the difference of the electrodes, and has a voltage within the
limits everywhere. -/
theorem C132_alone (pe ne1 pos neg ne : Curve) (lli qpe qne x2 : Rat) (P N em : Curve)
    (hb : blend ne1 pos neg x2 = .ok ne) (hpe : Distinct pe) (hne : Distinct ne) (hqp : 0 < qpe) (hqn : 0 < qne)
    (hwide : ∃ r ∈ pe, ∃ s ∈ pe, r.1 ≠ s.1) (hw : ∃ p ∈ em, ∃ q ∈ em, p.1 ≠ q.1)
    (h : vqAlone pe ne1 pos neg lli qpe qne x2 = .ok (P, N, em)) :
    P.map Prod.fst = N.map Prod.fst ∧
    (∃ z, (∀ q v, (q, v) ∈ P → OnCurve pe (100 * (q + z) / qpe) v) ∧
      (∀ q v, (q, v) ∈ N → OnCurve ne (100 * (q + z - lli) / qne) v)) ∧
    (∃ k a b, RowAt P N k 0 a b ∧ 27 / 10 ≤ a - b ∧ a - b ≤ 42 / 10 ∧
      ∀ j y c d, RowAt P N j y c d → 27 / 10 ≤ c - d → c - d ≤ 42 / 10 → a - b ≤ c - d ∧ (j < k → a - b < c - d)) ∧
    ∃ c a b, (∀ q v, (q, v) ∈ c ↔ ∃ k e f, RowAt P N k q e f ∧ 27 / 10 ≤ e - f ∧ e - f ≤ 42 / 10 ∧ v = some (e - f)) ∧
      Extent c a b ∧ a < b ∧ Even (em.map Prod.fst) a b ∧
      ∀ q v, (q, v) ∈ em → OnCurve c q v ∧ ∃ w, v = some w ∧ 27 / 10 ≤ w ∧ w ≤ 42 / 10 := by
  have ha := (vqAlone_eq hb hpe hne hqp hqn hwide hw).1 h
  obtain ⟨hm, _, hd⟩ := self_match hb hpe hne hqp hqn hwide ha hw
  obtain ⟨z1, z2, z3⟩ := C108_zero pe ne1 pos neg ne em lli qpe qne x2 _ hb hpe hne hqp hqn hm
  refine ⟨z1, z2, z3, ?_⟩
  obtain ⟨p, n, k, z, hi, hk, hz, rfl, rfl, hs⟩ := alone_ok ha
  obtain ⟨hax, hpd, hcd⟩ := scale_distinct hb hpe hne hqp hqn hwide hi
  obtain ⟨a, b, hab, hr, hr2, hpres, _, hgrid, hfix⟩ :=
    resampled_fixed (moveBy_distinct hcd) hs hw (fun q v hm => clipped_bounds hm)
  have hfull := resampled_full (moveBy_distinct hcd) hs (fun q v hm => clipped_bounds hm)
  refine ⟨present (moveBy (- z.1) (clipped (fullCell p n))), a, b, ?_, (range_iff ..).1 hr, hab, ?_, ?_⟩
  · intro q v
    rw [present_mem]
    constructor
    · rintro ⟨hm, hv⟩
      obtain ⟨j, hj⟩ := List.getElem?_of_mem hm
      have hj' := (getElem?_moveBy ..).1 hj
      cases v with
      | none => exact absurd rfl hv
      | some v =>
        obtain ⟨e, f, hrow, l1, l2, rfl⟩ := (clipped_row p n hax j _ v).1 hj'
        exact ⟨j, e, f, (rowAt_moveBy ..).2 hrow, l1, l2, rfl⟩
    · rintro ⟨j, e, f, hrow, l1, l2, rfl⟩
      have hrow' := (rowAt_moveBy ..).1 hrow
      exact ⟨List.mem_of_getElem? ((getElem?_moveBy ..).2 ((clipped_row p n hax j _ _).2 ⟨e, f, hrow', l1, l2, rfl⟩)),
        by simp⟩
  · rw [hgrid, map_fst_grid]; exact even_linspace a b
  · intro q v hm
    refine ⟨?_, hfull (q, v) hm⟩
    rw [hgrid] at hm
    obtain ⟨y, _, he⟩ := List.mem_map.1 hm
    obtain ⟨rfl, rfl⟩ := Prod.mk.inj he
    exact interp_onCurve _ (present_distinct (moveBy_distinct hcd)) y

theorem scaled_rows {pe ne1 pos neg ne p n : Curve} {lli qpe qne x2 : Rat} (hb : blend ne1 pos neg x2 = .ok ne)
    (hpe : Distinct pe) (hne : Distinct ne) (hqp : 0 < qpe) (hqn : 0 < qne)
    (hi : imposeScale pe ne1 pos neg lli qpe qne x2 = .ok (p, n)) : p.map Prod.fst = n.map Prod.fst :=
  (C107_scale pe ne1 pos neg ne p n lli qpe qne x2 hb hpe hne hqp hqn hi).1

/-- the emulation is refused exactly if the scaled electrodes have no full cell voltage within the limits -/
theorem C132_refused (pe ne1 pos neg ne p n : Curve) (lli qpe qne x2 : Rat) (hb : blend ne1 pos neg x2 = .ok ne)
    (hpe : Distinct pe) (hne : Distinct ne) (hqp : 0 < qpe) (hqn : 0 < qne) (hwide : ∃ r ∈ pe, ∃ s ∈ pe, r.1 ≠ s.1)
    (hi : imposeScale pe ne1 pos neg lli qpe qne x2 = .ok (p, n)) :
    (∃ r, vqAlone pe ne1 pos neg lli qpe qne x2 = .ok r) ↔
      ∃ k x a b, RowAt p n k x a b ∧ 27 / 10 ≤ a - b ∧ a - b ≤ 42 / 10 := by
  obtain ⟨hax, hpd, hcd⟩ := scale_distinct hb hpe hne hqp hqn hwide hi
  unfold vqAlone alone
  rw [hi]
  simp only
  cases hk : argminN ((clipped (fullCell p n)).map Prod.snd) with
  | none =>
    rw [argminN_none] at hk
    constructor
    · rintro ⟨m, h⟩; cases h
    · rintro ⟨k, x, a, b, hr, h1, h2⟩
      exact absurd ⟨_, List.mem_of_getElem? ((clipped_value p n hax k (a - b)).2 ⟨x, a, b, hr, h1, h2, rfl⟩)⟩ hk
  | some k =>
    obtain ⟨w, hw, _⟩ := (argminN_some _ k).1 hk
    obtain ⟨x, a, b, hr, hlo, hhi, rfl⟩ := (clipped_value p n hax k w).1 hw
    have hrow := (clipped_row p n hax k x (a - b)).2 ⟨a, b, hr, hlo, hhi, rfl⟩
    simp only
    rw [hrow]
    simp only
    have hmem : (x + - x, some (a - b)) ∈ moveBy (- x) (clipped (fullCell p n)) :=
      List.mem_map.2 ⟨_, List.mem_of_getElem? hrow, rfl⟩
    obtain ⟨em, hem⟩ := (resampled_total (moveBy (- x) (clipped (fullCell p n)))).2 ⟨_, hmem, by simp⟩
    rw [hem]
    simp only
    have hfull := resampled_full (moveBy_distinct hcd) hem (fun q v hm => clipped_bounds hm)
    have hne' : ∃ q ∈ em, q.2 ≠ none := by
      obtain ⟨a', b', _, _, hg⟩ := resampled_ok hem
      have hm : (a', interp (present (moveBy (- x) (clipped (fullCell p n)))) a') ∈ em := by
        rw [hg]; exact List.mem_map.2 ⟨a', (ends_linspace a' b').1, rfl⟩
      obtain ⟨v, hv, _⟩ := hfull _ hm
      exact ⟨_, hm, by rw [hv]; simp⟩
    obtain ⟨out, hout⟩ := (resampled_total em).2 hne'
    rw [hout]
    exact ⟨fun _ => ⟨k, x, a, b, hr, hlo, hhi⟩, fun _ => ⟨_, rfl⟩⟩

/-- emulated with or without a measurement, the electrodes are the same -/
theorem C132_electrodes (pe ne1 pos neg real : Curve) (lli qpe qne x2 : Rat) (P N em : Curve) (m : Matched)
    (h : vqAlone pe ne1 pos neg lli qpe qne x2 = .ok (P, N, em))
    (hm : matchAh pe ne1 pos neg lli qpe qne x2 real = .ok m) : m.pe = P ∧ m.ne = N := by
  unfold vqAlone at h
  cases ha : alone pe ne1 pos neg lli qpe qne x2 with
  | error e => rw [ha] at h; cases h
  | ok r =>
    obtain ⟨P', N', em'⟩ := r
    rw [ha] at h
    simp only at h
    cases hr : resampled em' with
    | error e => rw [hr] at h; cases h
    | ok out =>
      rw [hr] at h
      simp only [Except.ok.injEq, Prod.mk.injEq] at h
      obtain ⟨rfl, rfl, rfl⟩ := h
      obtain ⟨p, n, k, z, hi, hk, hz, rfl, rfl, _⟩ := alone_ok ha
      unfold matchAh at hm
      rw [hi] at hm
      simp only at hm
      rw [hk] at hm
      simp only at hm
      rw [hz] at hm
      simp only at hm
      unfold onReal at hm
      cases hg : range (present real) with
      | none => rw [hg] at hm; cases hm
      | some r =>
        rw [hg] at hm
        simp only [Except.ok.injEq] at hm
        rw [← hm]
        exact ⟨rfl, rfl⟩

/-- the V-Q representation of a match is the match itself -/
theorem C132_vq (pe ne1 pos neg real : Curve) (lli qpe qne x2 : Rat) (m : Matched) (hreal : Distinct real)
    (hw : ∃ p ∈ real, ∃ q ∈ real, p.2 ≠ none ∧ q.2 ≠ none ∧ p.1 ≠ q.1)
    (h : matchAh pe ne1 pos neg lli qpe qne x2 real = .ok m) : vq pe ne1 pos neg lli qpe qne x2 real = .ok m :=
  vq_eq hreal hw h

/-- the profile of the examples: the sample electrodes, emulated without a measurement -/
theorem sample_alone : ∃ P N em, vqAlone samplePe sampleNe [] [] 0 100 100 1 = .ok (P, N, em) ∧
    (∃ p ∈ em, ∃ q ∈ em, p.1 ≠ q.1) ∧ ∃ x y v w, (x, some v) ∈ em ∧ (y, some w) ∈ em ∧ v ≠ w := by
  have hb : blend sampleNe [] [] 1 = .ok sampleNe := rfl
  have hwide : ∃ r ∈ samplePe, ∃ s ∈ samplePe, r.1 ≠ s.1 :=
    ⟨_, List.mem_of_getElem? (samplePe_get 0 (by norm_num)), _, List.mem_of_getElem? (samplePe_get 1 (by norm_num)), by norm_num⟩
  obtain ⟨⟨P, N, out⟩, h⟩ := (C132_refused samplePe sampleNe [] [] sampleNe samplePe sampleNe 0 100 100 1 hb
    samplePe_distinct sampleNe_distinct (by norm_num) (by norm_num) hwide sample_scale).2
    ⟨280, 28, 27 / 10, 0, (sample_row ..).2 ⟨by norm_num, by norm_num, by norm_num, rfl⟩, by norm_num, by norm_num⟩
  obtain ⟨em, ha, _⟩ := vqAlone_inner h
  obtain ⟨p, n, k, z, hi, hk, hz, _, _, hs⟩ := alone_ok ha
  rw [sample_scale] at hi
  obtain ⟨rfl, rfl⟩ := Prod.mk.inj (Except.ok.inj hi)
  have row : ∀ j : Nat, j < 1001 → 280 ≤ j → j ≤ 880 →
      ((j : Rat) / 10 + - z.1, some (2 + (j : Rat) / 400)) ∈ moveBy (- z.1) (clipped (fullCell samplePe sampleNe)) := by
    intro j hj h1 h2
    have e1 : (280 : Rat) ≤ j := by exact_mod_cast h1
    have e2 : (j : Rat) ≤ 880 := by exact_mod_cast h2
    refine List.mem_map.2 ⟨_, List.mem_of_getElem? ((clipped_row samplePe sampleNe sample_axis j ((j : Rat) / 10) (2 + (j : Rat) / 400)).2
      ⟨2 + (j : Rat) / 400, 0, (sample_row ..).2 ⟨hj, rfl, rfl, rfl⟩, ?_, ?_, ?_⟩), rfl⟩
    · linarith
    · linarith
    · ring
  have hcd : Distinct (clipped (fullCell samplePe sampleNe)) := (scale_distinct hb samplePe_distinct sampleNe_distinct
    (by norm_num) (by norm_num) hwide sample_scale).2.2
  have hw : ∃ p ∈ em, ∃ q ∈ em, p.1 ≠ q.1 :=
    resampled_wide hs ⟨_, row 280 (by norm_num) (by norm_num) (by norm_num), _, row 880 (by norm_num) (by norm_num) (by norm_num),
      by simp, by simp, by simp⟩
  have hv := (vqAlone_eq hb samplePe_distinct sampleNe_distinct (by norm_num) (by norm_num) hwide hw).2 ha
  refine ⟨P, N, em, hv, hw, ?_⟩
  obtain ⟨a, b, hab, hr, _, _, _, hgrid, _⟩ := resampled_fixed (moveBy_distinct hcd) hs hw (fun q v hm => clipped_bounds hm)
  obtain ⟨⟨pa, hpa, ea⟩, ⟨pb, hpb, eb⟩, _⟩ := (range_iff ..).1 hr
  have hdist := present_distinct (moveBy_distinct (d := - z.1) hcd)
  have key : ∀ q ∈ present (moveBy (- z.1) (clipped (fullCell samplePe sampleNe))), ∃ v, q.2 = some v ∧ v = 2 + (q.1 + z.1) / 40 := by
    intro q hq
    obtain ⟨hq1, hq2⟩ := present_mem.1 hq
    obtain ⟨qx, qv⟩ := q
    obtain ⟨j, hj⟩ := List.getElem?_of_mem hq1
    have hj' := (getElem?_moveBy ..).1 hj
    cases qv with
    | none => exact absurd rfl hq2
    | some v =>
      obtain ⟨e, f, hrow, _, _, rfl⟩ := (clipped_row samplePe sampleNe sample_axis j _ v).1 hj'
      obtain ⟨_, hx, rfl, rfl⟩ := (sample_row ..).1 hrow
      refine ⟨_, rfl, ?_⟩
      simp only at hx ⊢
      have : qx + z.1 = (j : Rat) / 10 := by linarith
      rw [this]; ring
  obtain ⟨va, ha2, ha3⟩ := key pa hpa
  obtain ⟨vb, hb2, hb3⟩ := key pb hpb
  have gm : ∀ x v, x ∈ linspace a b 1001 → (x, some v) ∈ present (moveBy (- z.1) (clipped (fullCell samplePe sampleNe))) →
      (x, some v) ∈ em := by
    intro x v hx hm
    rw [hgrid]
    refine List.mem_map.2 ⟨x, hx, ?_⟩
    rw [(interp_iff _ hdist (List.ne_nil_of_mem hm) x (some v)).2 (Or.inl hm)]
  refine ⟨a, b, va, vb, gm a va (ends_linspace a b).1 ?_, gm b vb (ends_linspace a b).2 ?_, ?_⟩
  · rw [← ha2, ← ea]; exact hpa
  · rw [← hb2, ← eb]; exact hpb
  · rw [ha3, hb3, ea, eb]
    intro h
    linarith

/-! ### C133: the error of a fit -/

theorem known_eq (c : Curve) : dropna c = known c := by
  unfold dropna known
  congr 1
  funext p
  cases p.2 <;> rfl

theorem blend_err {e1 pos neg : Curve} {x2 : Rat} {e : Err} (h : blend e1 pos neg x2 = .error e) : e = .valueError := by
  unfold blend at h
  split at h
  · cases h
  · simp only at h
    split at h
    · split at h
      · split at h
        · cases h; rfl
        · cases h
      · cases h; rfl
    · cases h; rfl

theorem scale_err {pe ne1 pos neg : Curve} {lli qpe qne x2 : Rat} {e : Err}
    (h : imposeScale pe ne1 pos neg lli qpe qne x2 = .error e) : e = .valueError := by
  unfold imposeScale at h
  split at h
  · rename_i e' hb
    cases h
    exact blend_err hb
  · unfold realign at h
    split at h
    · split at h
      · cases h; rfl
      · cases h
    · cases h; rfl

/-- a match fails with `ValueError` or not at all -/
theorem match_err {pe ne1 pos neg real : Curve} {lli qpe qne x2 : Rat} {e : Err}
    (h : matchAh pe ne1 pos neg lli qpe qne x2 real = .error e) : e = .valueError := by
  unfold matchAh at h
  cases hi : imposeScale pe ne1 pos neg lli qpe qne x2 with
  | error e' => rw [hi] at h; cases h; exact scale_err hi
  | ok r =>
    obtain ⟨p, n⟩ := r
    rw [hi] at h
    simp only at h
    cases hk : argminN ((clipped (fullCell p n)).map Prod.snd) with
    | none => rw [hk] at h; cases h; rfl
    | some k =>
      rw [hk] at h
      simp only at h
      obtain ⟨w, hw, _⟩ := (argminN_some _ k).1 hk
      rw [List.getElem?_map] at hw
      cases hz : (clipped (fullCell p n))[k]? with
      | none => rw [hz] at hw; cases hw
      | some z =>
        rw [hz] at h
        simp only at h
        unfold onReal at h
        split at h
        · cases h; rfl
        · cases h

theorem overV_err {top : Rat} {c : Curve} {e : Err} (h : overV top c = .error e) : e = .valueError := by
  unfold overV dqdvOf gradient at h
  split at h
  · rename_i e' h'
    cases h
    split at h'
    · rename_i h''
      split at h''
      · cases h''
      · cases h''; cases h'; rfl
    · cases h'
  · split at h
    · cases h; rfl
    · cases h

theorem dvdqOf_err {c : Curve} {e : Err} (h : dvdqOf c = .error e) : e = .valueError := by
  unfold dvdqOf gradient at h
  split at h
  · rename_i h'
    split at h'
    · cases h'
    · cases h'; cases h; rfl
  · cases h

theorem compared_err {metric : Metric} {pe ne1 pos neg real : Curve} {lli qpe qne x2 : Rat} {e : Err}
    (h : compared metric pe ne1 pos neg lli qpe qne x2 real = .error e) : e = .valueError := by
  cases metric with
  | vq =>
    unfold compared vq at h
    simp only at h
    cases hm : matchAh pe ne1 pos neg lli qpe qne x2 real with
    | error e' => rw [hm] at h; cases h; exact match_err hm
    | ok m =>
      rw [hm] at h
      simp only at h
      cases hr : range (present m.real) with
      | none => rw [hr] at h; cases h; rfl
      | some r => rw [hr] at h; cases h
  | dvdq =>
    unfold compared dvdq at h
    simp only at h
    cases hm : matchAh pe ne1 pos neg lli qpe qne x2 real with
    | error e' => rw [hm] at h; cases h; exact match_err hm
    | ok m =>
      rw [hm] at h
      simp only at h
      cases h1 : dvdqOf m.real with
      | error e' => rw [h1] at h; cases h; exact dvdqOf_err h1
      | ok a =>
        rw [h1] at h
        simp only at h
        cases h2 : dvdqOf m.emulated with
        | error e' => rw [h2] at h; cases h; exact dvdqOf_err h2
        | ok b => rw [h2] at h; cases h
  | dqdv =>
    unfold compared dqdv at h
    simp only at h
    cases hm : matchAh pe ne1 pos neg lli qpe qne x2 real with
    | error e' => rw [hm] at h; cases h; exact match_err hm
    | ok m =>
      rw [hm] at h
      simp only at h
      cases hr : range m.real with
      | none => rw [hr] at h; cases h; rfl
      | some r =>
        rw [hr] at h
        simp only at h
        cases h1 : overV r.2 m.real with
        | error e' => rw [h1] at h; cases h; exact overV_err h1
        | ok a =>
          rw [h1] at h
          simp only at h
          cases h2 : overV r.2 m.emulated with
          | error e' => rw [h2] at h; cases h; exact overV_err h2
          | ok b => rw [h2] at h; cases h

theorem known_length (c : Curve) : (known c).length ≤ c.length := List.length_filterMap_le _ _

theorem overV_length {top : Rat} {c : Curve} {r : List OverV} (h : overV top c = .ok r) : r.length = 1001 := by
  unfold overV at h
  split at h
  · cases h
  · split at h
    · cases h
    · have := Except.ok.inj h
      rw [← this, List.length_map, length_linspace]

theorem dvdqOf_length {c r : Curve} (h : dvdqOf c = .ok r) : r.length ≤ c.length := by
  unfold dvdqOf at h
  split at h
  · cases h
  · have := Except.ok.inj h
    rw [← this, List.length_zip, List.length_map]
    omega

theorem match_length {pe ne1 pos neg real : Curve} {lli qpe qne x2 : Rat} {m : Matched}
    (h : matchAh pe ne1 pos neg lli qpe qne x2 real = .ok m) : m.real.length = 1001 ∧ m.emulated.length = 1001 := by
  obtain ⟨hres, em, a, b, _, hem⟩ := matchAh_real h
  obtain ⟨a', b', _, _, hr⟩ := resampled_ok hres
  rw [hr, hem, List.length_map, List.length_map, length_linspace, length_linspace]
  exact ⟨rfl, rfl⟩

/-- at most 1001 points of each profile are compared -/
theorem compared_length {metric : Metric} {pe ne1 pos neg real : Curve} {lli qpe qne x2 : Rat} {xa xb : List (Rat × Rat)}
    (h : compared metric pe ne1 pos neg lli qpe qne x2 real = .ok (xa, xb)) : xa.length ≤ 1001 ∧ xb.length ≤ 1001 := by
  cases metric with
  | vq =>
    unfold compared vq at h
    simp only at h
    cases hm : matchAh pe ne1 pos neg lli qpe qne x2 real with
    | error e' => rw [hm] at h; cases h
    | ok m =>
      rw [hm] at h
      simp only at h
      cases hr : range (present m.real) with
      | none => rw [hr] at h; cases h
      | some r =>
        rw [hr] at h
        simp only [Except.ok.injEq, Prod.mk.injEq] at h
        obtain ⟨h1, h2⟩ := h
        rw [← h1, ← h2, known_eq, known_eq]
        refine ⟨le_trans (known_length _) ?_, le_trans (known_length _) ?_⟩ <;>
          rw [List.length_map, length_linspace]
  | dvdq =>
    unfold compared dvdq at h
    simp only at h
    cases hm : matchAh pe ne1 pos neg lli qpe qne x2 real with
    | error e' => rw [hm] at h; cases h
    | ok m =>
      rw [hm] at h
      simp only at h
      cases h1 : dvdqOf m.real with
      | error e' => rw [h1] at h; cases h
      | ok a =>
        rw [h1] at h
        simp only at h
        cases h2 : dvdqOf m.emulated with
        | error e' => rw [h2] at h; cases h
        | ok b =>
          rw [h2] at h
          simp only [Except.ok.injEq, Prod.mk.injEq] at h
          obtain ⟨e1, e2⟩ := h
          have l1 := dvdqOf_length h1
          have l2 := dvdqOf_length h2
          rw [(match_length hm).1] at l1
          rw [(match_length hm).2] at l2
          rw [← e1, ← e2, known_eq, known_eq]
          exact ⟨le_trans (List.length_filter_le _ _) (le_trans (known_length _) l1),
            le_trans (List.length_filter_le _ _) (le_trans (known_length _) l2)⟩
  | dqdv =>
    unfold compared dqdv at h
    simp only at h
    cases hm : matchAh pe ne1 pos neg lli qpe qne x2 real with
    | error e' => rw [hm] at h; cases h
    | ok m =>
      rw [hm] at h
      simp only at h
      cases hr : range m.real with
      | none => rw [hr] at h; cases h
      | some r =>
        rw [hr] at h
        simp only at h
        cases h1 : overV r.2 m.real with
        | error e' => rw [h1] at h; cases h
        | ok a =>
          rw [h1] at h
          simp only at h
          cases h2 : overV r.2 m.emulated with
          | error e' => rw [h2] at h; cases h
          | ok b =>
            rw [h2] at h
            simp only [Except.ok.injEq, Prod.mk.injEq] at h
            rw [← h.1, ← h.2, List.length_map, List.length_map, overV_length h1, overV_length h2]
            exact ⟨le_refl _, le_refl _⟩

theorem meanNearest_err {xa xb : List (Rat × Rat)} {e : Err} (h : meanNearest xa xb = .error e) : e = .valueError := by
  unfold meanNearest at h
  split at h
  · cases h
  · split at h
    · cases h; rfl
    · simp only at h
      split at h <;> cases h

/-- the error is that of the compared points, or 100 where nothing can be compared -/
theorem errorBy_cases (metric : Metric) (pe ne1 pos neg real : Curve) (lli qpe qne x2 : Rat) :
    errorBy metric pe ne1 pos neg lli qpe qne x2 real = .ok (some 100) ∨
    ∃ xa xb r, compared metric pe ne1 pos neg lli qpe qne x2 real = .ok (xa, xb) ∧ meanNearest xa xb = .ok r ∧
      errorBy metric pe ne1 pos neg lli qpe qne x2 real = .ok r := by
  unfold errorBy
  cases hc : compared metric pe ne1 pos neg lli qpe qne x2 real with
  | error e =>
    left
    rw [compared_err hc]
    rfl
  | ok r =>
    obtain ⟨xa, xb⟩ := r
    cases hn : meanNearest xa xb with
    | error e =>
      left
      have he := meanNearest_err hn
      simp only [hn]
      rw [he]
      rfl
    | ok d =>
      right
      refine ⟨xa, xb, d, rfl, hn, ?_⟩
      simp only [hn]
      rfl

theorem bound90 {xa xb : List (Rat × Rat)} {e : ℝ} (h : meanNearest xa xb = .ok (some e)) (ha : xa.length ≤ 1001)
    (hb : xb.length ≤ 1001) : 0 ≤ e ∧ e < 90 := by
  obtain ⟨h0, h1⟩ := meanNearest_bound h (n := 2001) (by omega)
  refine ⟨h0, lt_of_le_of_lt h1 ?_⟩
  rw [Real.sqrt_lt' (by norm_num)]
  norm_num

/-- The error never raises an exception, whatever the parameters, the electrodes and the measured profile are. -/
theorem C133_total (errorType : String) (pe ne1 pos neg real : Curve) (lli qpe qne x2 : Rat) :
    ∃ r, error errorType pe ne1 pos neg lli qpe qne x2 real = .ok r := by
  unfold error
  rcases errorBy_cases (metricOf errorType) pe ne1 pos neg real lli qpe qne x2 with h | ⟨_, _, r, _, _, h⟩
  · exact ⟨_, h⟩
  · exact ⟨r, h⟩

/-- An error is below 90 or it is 100, the error of parameters for which no cell can be emulated. -/
theorem C133_below (errorType : String) (pe ne1 pos neg real : Curve) (lli qpe qne x2 : Rat) (e : ℝ)
    (h : error errorType pe ne1 pos neg lli qpe qne x2 real = .ok (some e)) : (0 ≤ e ∧ e < 90) ∨ e = 100 := by
  unfold error at h
  rcases errorBy_cases (metricOf errorType) pe ne1 pos neg real lli qpe qne x2 with h' | ⟨xa, xb, r, hc, hn, h'⟩
  · rw [h'] at h
    right
    exact (Option.some.inj (Except.ok.inj h)).symm
  · rw [h'] at h
    have := Except.ok.inj h
    subst this
    left
    obtain ⟨l1, l2⟩ := compared_length hc
    exact bound90 hn l1 l2

/-- what is compared in the V-Q representation -/
theorem compared_vq {pe ne1 pos neg real : Curve} {lli qpe qne x2 : Rat} {m : Matched} (hreal : Distinct real)
    (hw : ∃ p ∈ real, ∃ q ∈ real, p.2 ≠ none ∧ q.2 ≠ none ∧ p.1 ≠ q.1)
    (hm : matchAh pe ne1 pos neg lli qpe qne x2 real = .ok m) :
    compared .vq pe ne1 pos neg lli qpe qne x2 real = .ok (known m.real, known m.emulated) := by
  unfold compared
  rw [vq_eq hreal hw hm]
  simp only
  rw [known_eq, known_eq]

theorem mem_known {c : Curve} {q v : Rat} : (q, v) ∈ known c ↔ (q, some v) ∈ c := by
  unfold known
  rw [List.mem_filterMap]
  constructor
  · rintro ⟨⟨x, w⟩, hm, he⟩
    cases w with
    | none => cases he
    | some w => cases he; exact hm
  · intro h
    exact ⟨_, h, rfl⟩

theorem known_nil {c : Curve} : known c = [] ↔ ∀ p ∈ c, p.2 = none := by
  constructor
  · rintro h ⟨x, w⟩ hp
    cases w with
    | none => rfl
    | some w => have := mem_known.2 hp; rw [h] at this; cases this
  · intro h
    rw [List.eq_nil_iff_forall_not_mem]
    rintro ⟨q, v⟩ hm
    have := h _ (mem_known.1 hm)
    cases this

/-- the measured profile of a match has a voltage everywhere, at different places -/
theorem real_known {pe ne1 pos neg real : Curve} {lli qpe qne x2 : Rat} {m : Matched} (hreal : Distinct real)
    (hw : ∃ p ∈ real, ∃ q ∈ real, p.2 ≠ none ∧ q.2 ≠ none ∧ p.1 ≠ q.1)
    (hm : matchAh pe ne1 pos neg lli qpe qne x2 real = .ok m) :
    (∀ p ∈ m.real, p.2 ≠ none) ∧ ∃ p ∈ known m.real, ∃ q ∈ known m.real, p.1 ≠ q.1 := by
  obtain ⟨hres, _⟩ := matchAh_real hm
  obtain ⟨lo, hi, hb⟩ := bounded real
  have hwide := resampled_wide hres hw
  obtain ⟨a, b, hab, hr, hr2, hpres, _, hgrid, hfix⟩ := resampled_fixed hreal hres hwide hb
  have hall : ∀ p ∈ m.real, p.2 ≠ none := by
    intro p hp
    rw [← hpres] at hp
    exact (present_mem.1 hp).2
  refine ⟨hall, ?_⟩
  obtain ⟨⟨x, v⟩, hp, ⟨y, w⟩, hq, hpq⟩ := hwide
  cases v with
  | none => exact absurd rfl (hall _ hp)
  | some v => cases w with
    | none => exact absurd rfl (hall _ hq)
    | some w => exact ⟨_, mem_known.2 hp, _, mem_known.2 hq, hpq⟩

/-- The V-Q error is the mean, over the points of the measured profile, of the standardised distance from the nearest
point of the emulated profile. -/
theorem C133_mean (pe ne1 pos neg real : Curve) (lli qpe qne x2 : Rat) (m : Matched) (hreal : Distinct real)
    (hw : ∃ p ∈ real, ∃ q ∈ real, p.2 ≠ none ∧ q.2 ≠ none ∧ p.1 ≠ q.1)
    (hm : matchAh pe ne1 pos neg lli qpe qne x2 real = .ok m) (hem : ∃ p ∈ m.emulated, p.2 ≠ none)
    (hv : ∃ p ∈ known m.real ++ known m.emulated, ∃ q ∈ known m.real ++ known m.emulated, p.2 ≠ q.2) :
    ∃ e, error "V-Q" pe ne1 pos neg lli qpe qne x2 real = .ok (some e) ∧ MeanNearest (known m.real) (known m.emulated) e := by
  have hk := real_known hreal hw hm
  have h1 : known m.real ≠ [] := by
    obtain ⟨_, p, hp, _⟩ := hk
    exact List.ne_nil_of_mem hp
  have h2 : known m.emulated ≠ [] := by
    intro h
    obtain ⟨p, hp, hne⟩ := hem
    exact hne (known_nil.1 h p hp)
  obtain ⟨_, p, hp, q, hq, hpq⟩ := hk
  obtain ⟨e, he⟩ := meanNearest_spread h1 h2
    ⟨⟨p, List.mem_append_left _ hp, q, List.mem_append_left _ hq, hpq⟩, hv⟩
  refine ⟨e, ?_, meanNearest_spec he⟩
  unfold error errorBy
  have : metricOf "V-Q" = .vq := by decide +kernel
  rw [this, compared_vq hreal hw hm]
  simp only [he]
  rfl

/-- The V-Q error is 0 exactly if every point of the measured profile is a point of the emulated one. -/
theorem C133_zero (pe ne1 pos neg real : Curve) (lli qpe qne x2 : Rat) (m : Matched) (hreal : Distinct real)
    (hw : ∃ p ∈ real, ∃ q ∈ real, p.2 ≠ none ∧ q.2 ≠ none ∧ p.1 ≠ q.1)
    (hm : matchAh pe ne1 pos neg lli qpe qne x2 real = .ok m) (e : ℝ)
    (h : error "V-Q" pe ne1 pos neg lli qpe qne x2 real = .ok (some e)) :
    e = 0 ↔ ∀ q v, (q, v) ∈ m.real → (q, v) ∈ m.emulated := by
  have hall := (real_known hreal hw hm).1
  have hsub : (∀ p ∈ known m.real, p ∈ known m.emulated) ↔ ∀ q v, (q, v) ∈ m.real → (q, v) ∈ m.emulated := by
    constructor
    · intro hp q v hm'
      cases v with
      | none => exact absurd rfl (hall _ hm')
      | some v => exact mem_known.1 (hp (q, v) (mem_known.2 hm'))
    · rintro hp ⟨q, v⟩ hm'
      exact mem_known.2 (hp q (some v) (mem_known.1 hm'))
  have hq : metricOf "V-Q" = .vq := by decide +kernel
  unfold error errorBy at h
  rw [hq, compared_vq hreal hw hm] at h
  simp only at h
  cases hn : meanNearest (known m.real) (known m.emulated) with
  | error e' =>
    have := meanNearest_err hn
    subst this
    rw [hn] at h
    have e100 : e = 100 := (Option.some.inj (Except.ok.inj h)).symm
    constructor
    · intro h0; rw [h0] at e100; norm_num at e100
    · intro hp
      exfalso
      have hsub' := hsub.2 hp
      obtain ⟨_, p, hp', _⟩ := real_known hreal hw hm
      have h1 : known m.emulated ≠ [] := List.ne_nil_of_mem (hsub' p hp')
      have h2 : known m.real ≠ [] := List.ne_nil_of_mem hp'
      by_cases hs : Spread (known m.real ++ known m.emulated)
      · obtain ⟨e', he'⟩ := meanNearest_spread h2 h1 hs
        rw [he'] at hn; cases hn
      · rw [meanNearest_none h2 h1 hs] at hn; cases hn
  | ok r =>
    rw [hn] at h
    have : r = some e := Except.ok.inj h
    subst this
    rw [meanNearest_zero hn, hsub]

/-- The V-Q error is 100 exactly if there is no match, or the emulated cell has no voltage where the measured one has. -/
theorem C133_refused (pe ne1 pos neg real : Curve) (lli qpe qne x2 : Rat) (hreal : Distinct real)
    (hw : ∃ p ∈ real, ∃ q ∈ real, p.2 ≠ none ∧ q.2 ≠ none ∧ p.1 ≠ q.1) :
    error "V-Q" pe ne1 pos neg lli qpe qne x2 real = .ok (some 100) ↔
      ¬ ∃ m, matchAh pe ne1 pos neg lli qpe qne x2 real = .ok m ∧ ∃ p ∈ m.emulated, p.2 ≠ none := by
  have hq : metricOf "V-Q" = .vq := by decide +kernel
  unfold error errorBy
  rw [hq]
  cases hm : matchAh pe ne1 pos neg lli qpe qne x2 real with
  | error e =>
    have hc : compared .vq pe ne1 pos neg lli qpe qne x2 real = .error e := by
      unfold compared vq
      rw [hm]
    rw [hc, compared_err hc]
    constructor
    · rintro _ ⟨m, h, _⟩; cases h
    · intro _; rfl
  | ok m =>
    rw [compared_vq hreal hw hm]
    simp only
    obtain ⟨_, p, hp', _⟩ := real_known hreal hw hm
    have h2 : known m.real ≠ [] := List.ne_nil_of_mem hp'
    by_cases hk : known m.emulated = []
    · have hn : meanNearest (known m.real) (known m.emulated) = .error .valueError := by
        rw [hk]
        unfold meanNearest
        rw [if_neg (by simpa using h2)]
        rfl
      rw [hn]
      constructor
      · rintro _ ⟨m', h, q, hq', hne⟩
        cases h
        exact hne (known_nil.1 hk q hq')
      · intro _; rfl
    · constructor
      · intro h
        exfalso
        cases hn : meanNearest (known m.real) (known m.emulated) with
        | error e =>
          by_cases hs : Spread (known m.real ++ known m.emulated)
          · obtain ⟨e', he'⟩ := meanNearest_spread h2 hk hs
            rw [he'] at hn; cases hn
          · rw [meanNearest_none h2 hk hs] at hn; cases hn
        | ok r =>
          rw [hn] at h
          have : r = some 100 := Except.ok.inj h
          subst this
          obtain ⟨l1, l2⟩ := compared_length (compared_vq hreal hw hm)
          have := (bound90 hn l1 l2).2
          norm_num at this
      · intro h
        exfalso
        apply hk
        rw [known_nil]
        intro q hq'
        by_contra hne
        exact h ⟨m, rfl, q, hq', hne⟩

/-- parameters without a match have the error 100 in every representation -/
theorem C133_unmatched (errorType : String) (pe ne1 pos neg real : Curve) (lli qpe qne x2 : Rat)
    (h : ¬ ∃ m, matchAh pe ne1 pos neg lli qpe qne x2 real = .ok m) :
    error errorType pe ne1 pos neg lli qpe qne x2 real = .ok (some 100) := by
  unfold error errorBy
  cases hm : matchAh pe ne1 pos neg lli qpe qne x2 real with
  | ok m => exact absurd ⟨m, hm⟩ h
  | error e =>
    have hc : compared (metricOf errorType) pe ne1 pos neg lli qpe qne x2 real = .error e := by
      cases metricOf errorType with
      | vq => unfold compared vq; rw [hm]
      | dvdq => unfold compared dvdq; rw [hm]
      | dqdv => unfold compared dqdv; rw [hm]
    rw [hc, compared_err hc]
    rfl

theorem gradient_ok {rows : List (Option Rat × Option Rat)} (h : 2 ≤ rows.length) : ∃ g, gradient rows = .ok g := by
  match rows, h with
  | p :: q :: rest, _ => exact ⟨_, rfl⟩

theorem dvdqOf_ok {c : Curve} (h : c.length = 1001) : ∃ g, dvdqOf c = .ok ((c.map Prod.fst).zip (ewm g)) := by
  obtain ⟨g, hg⟩ := gradient_ok (rows := c.map (fun p => (some p.1, p.2))) (by rw [List.length_map]; omega)
  unfold dvdqOf
  rw [hg]
  exact ⟨g, rfl⟩

/-- A measured profile that ends at 0.5 Ah or below has no dVdQ error for any parameters: it is NaN, neither a distance
nor the 100 of a failed emulation. -/
theorem C133_small_violated (pe ne1 pos neg real : Curve) (lli qpe qne x2 : Rat) (m : Matched)
    (hm : matchAh pe ne1 pos neg lli qpe qne x2 real = .ok m) (hs : ∀ p ∈ real, p.1 ≤ 1 / 2) :
    error "dVdQ" pe ne1 pos neg lli qpe qne x2 real = .ok none := by
  obtain ⟨hres, _⟩ := matchAh_real hm
  obtain ⟨a, b, hr, hab, hg⟩ := resampled_ok hres
  have hb : b ≤ 1 / 2 := by
    obtain ⟨_, ⟨q, hq, rfl⟩, _⟩ := (range_iff ..).1 hr
    exact hs q (present_mem.1 hq).1
  obtain ⟨l1, l2⟩ := match_length hm
  obtain ⟨g1, h1⟩ := dvdqOf_ok l1
  obtain ⟨g2, h2⟩ := dvdqOf_ok l2
  have hx : metricOf "dVdQ" = .dvdq := by decide +kernel
  have hnil : (dropna ((m.real.map Prod.fst).zip (ewm g1))).filter (fun p => decide (1 / 2 < p.1)) = [] := by
    rw [List.filter_eq_nil_iff]
    rintro ⟨q, v⟩ hq
    rw [known_eq, mem_known] at hq
    have hq' := (List.of_mem_zip hq).1
    rw [hg, map_fst_grid] at hq'
    have := (IntracellFeatures.linspace_le hab hq').2
    simp only [decide_eq_true_eq, not_lt]
    linarith
  unfold error errorBy
  rw [hx]
  unfold compared dvdq
  rw [hm]
  simp only
  rw [h1, h2]
  simp only
  rw [hnil]
  rfl

/-! ### C134: fitting a simulated cell -/

theorem compared_self {metric : Metric} {pe ne1 pos neg em P N : Curve} {lli qpe qne x2 : Rat}
    (hm : matchAh pe ne1 pos neg lli qpe qne x2 em = .ok ⟨P, N, em, em⟩) (hd : Distinct em)
    (hw : ∃ p ∈ em, ∃ q ∈ em, p.2 ≠ none ∧ q.2 ≠ none ∧ p.1 ≠ q.1) :
    ∃ xa, compared metric pe ne1 pos neg lli qpe qne x2 em = .ok (xa, xa) := by
  have hl : em.length = 1001 := (match_length hm).1
  cases metric with
  | vq => exact ⟨_, compared_vq hd hw hm⟩
  | dvdq =>
    obtain ⟨g, hg⟩ := dvdqOf_ok hl
    unfold compared dvdq
    rw [hm]
    simp only
    rw [hg]
    exact ⟨_, rfl⟩
  | dqdv =>
    unfold compared dqdv
    rw [hm]
    simp only
    cases hr : range em with
    | none =>
      rw [range_none] at hr
      rw [hr] at hl; cases hl
    | some r =>
      simp only
      have : ∃ o, overV r.2 em = .ok o := by
        obtain ⟨g, hg⟩ := gradient_ok (rows := em.map (fun p => (p.2, some p.1))) (by rw [List.length_map]; omega)
        unfold overV dqdvOf
        rw [hg]
        simp only
        have glen : (ewm g).length = em.length := by
          have e1 : ∀ (vs : List (Option Rat)) s, (ewmFrom s vs).length = vs.length := by
            intro vs
            induction vs with
            | nil => intro s; rfl
            | cons v vs ih => intro s; simp only [ewmFrom, List.length_cons, ih]
          have e2 : ∀ (rest : List (Option Rat × Option Rat)) p q, (slopes p q rest).length = rest.length + 1 := by
            intro rest
            induction rest with
            | nil => intro p q; rfl
            | cons r rest ih => intro p q; simp only [slopes, List.length_cons, ih]
          unfold ewm
          rw [e1]
          unfold gradient at hg
          split at hg
          · rename_i p q rest hrows
            rw [← Except.ok.inj hg]
            have := congrArg List.length hrows
            simp only [List.length_map, List.length_cons] at this
            simp only [List.length_cons, e2]
            omega
          · cases hg
        rw [if_neg]
        · exact ⟨_, rfl⟩
        · rw [List.isEmpty_iff, List.eq_nil_iff_forall_not_mem]
          intro hne
          obtain ⟨p, hp, _, _, hp2, _⟩ := hw
          have hp' : p ∈ ((ewm g).zip em).map Prod.snd := by
            rw [List.map_snd_zip (by omega)]; exact hp
          obtain ⟨r', hr', he⟩ := List.mem_map.1 hp'
          obtain ⟨v, hv⟩ := Option.ne_none_iff_exists'.1 hp2
          apply hne (v, some p.1)
          unfold qPoints
          rw [List.mem_filterMap]
          exact ⟨r', hr', by rw [he, hv]; rfl⟩
      obtain ⟨o, ho⟩ := this
      rw [ho]
      exact ⟨_, rfl⟩

/-- A profile simulated from some parameters and handed to the fit: with the same parameters it is reproduced point by
point, and the error is 0 (or, if all points that are compared have the same value, NaN). -/
theorem C134_self (errorType : String) (pe ne1 pos neg ne : Curve) (lli qpe qne x2 : Rat) (P N em : Curve)
    (hb : blend ne1 pos neg x2 = .ok ne) (hpe : Distinct pe) (hne : Distinct ne) (hqp : 0 < qpe) (hqn : 0 < qne)
    (hwide : ∃ r ∈ pe, ∃ s ∈ pe, r.1 ≠ s.1) (hw : ∃ p ∈ em, ∃ q ∈ em, p.1 ≠ q.1)
    (h : vqAlone pe ne1 pos neg lli qpe qne x2 = .ok (P, N, em)) :
    matchAh pe ne1 pos neg lli qpe qne x2 em = .ok ⟨P, N, em, em⟩ ∧
    (error errorType pe ne1 pos neg lli qpe qne x2 em = .ok (some 0) ∨
      error errorType pe ne1 pos neg lli qpe qne x2 em = .ok none) ∧
    (syntheticError errorType pe ne1 pos neg lli qpe qne x2 em = .ok (some 0) ∨
      syntheticError errorType pe ne1 pos neg lli qpe qne x2 em = .ok none) := by
  have ha := (vqAlone_eq hb hpe hne hqp hqn hwide hw).1 h
  obtain ⟨hm, _, hd⟩ := self_match hb hpe hne hqp hqn hwide ha hw
  obtain ⟨_, _, _, c, a, b, _, _, _, _, hall⟩ :=
    C132_alone pe ne1 pos neg ne lli qpe qne x2 P N em hb hpe hne hqp hqn hwide hw h
  have hw2 : ∃ p ∈ em, ∃ q ∈ em, p.2 ≠ none ∧ q.2 ≠ none ∧ p.1 ≠ q.1 := by
    obtain ⟨p, hp, q, hq, hpq⟩ := hw
    obtain ⟨_, v, hv, _⟩ := hall p.1 p.2 hp
    obtain ⟨_, w, hw', _⟩ := hall q.1 q.2 hq
    exact ⟨p, hp, q, hq, by rw [hv]; simp, by rw [hw']; simp, hpq⟩
  have key : ∀ metric, errorBy metric pe ne1 pos neg lli qpe qne x2 em = .ok (some 0) ∨
      errorBy metric pe ne1 pos neg lli qpe qne x2 em = .ok none := by
    intro metric
    obtain ⟨xa, hxa⟩ := compared_self (metric := metric) hm hd hw2
    unfold errorBy
    rw [hxa]
    simp only
    rcases meanNearest_self xa with h | h
    · right; rw [h]; rfl
    · left; rw [h]; rfl
  refine ⟨hm, key _, ?_⟩
  unfold syntheticError
  rcases key (metricSynthetic errorType) with h | h
  · left; rw [h]
  · right; rw [h]

/-- With two different voltages in it, the simulated profile has the V-Q error 0 at its own parameters, and no parameters
have a smaller error. -/
theorem C134_best (pe ne1 pos neg ne : Curve) (lli qpe qne x2 : Rat) (P N em : Curve)
    (hb : blend ne1 pos neg x2 = .ok ne) (hpe : Distinct pe) (hne : Distinct ne) (hqp : 0 < qpe) (hqn : 0 < qne)
    (hwide : ∃ r ∈ pe, ∃ s ∈ pe, r.1 ≠ s.1) (hw : ∃ p ∈ em, ∃ q ∈ em, p.1 ≠ q.1)
    (hv : ∃ x y v w, (x, some v) ∈ em ∧ (y, some w) ∈ em ∧ v ≠ w)
    (h : vqAlone pe ne1 pos neg lli qpe qne x2 = .ok (P, N, em)) :
    error "V-Q" pe ne1 pos neg lli qpe qne x2 em = .ok (some 0) ∧
    syntheticError "V-Q" pe ne1 pos neg lli qpe qne x2 em = .ok (some 0) ∧
    ∀ lli' qpe' qne' x2' e, error "V-Q" pe ne1 pos neg lli' qpe' qne' x2' em = .ok (some e) → 0 ≤ e := by
  have ha := (vqAlone_eq hb hpe hne hqp hqn hwide hw).1 h
  obtain ⟨hm, _, hd⟩ := self_match hb hpe hne hqp hqn hwide ha hw
  obtain ⟨_, _, _, c, a, b, _, _, _, _, hall⟩ :=
    C132_alone pe ne1 pos neg ne lli qpe qne x2 P N em hb hpe hne hqp hqn hwide hw h
  have hw2 : ∃ p ∈ em, ∃ q ∈ em, p.2 ≠ none ∧ q.2 ≠ none ∧ p.1 ≠ q.1 := by
    obtain ⟨p, hp, q, hq, hpq⟩ := hw
    obtain ⟨_, v, hv, _⟩ := hall p.1 p.2 hp
    obtain ⟨_, w, hw', _⟩ := hall q.1 q.2 hq
    exact ⟨p, hp, q, hq, by rw [hv]; simp, by rw [hw']; simp, hpq⟩
  obtain ⟨x, y, v, w, h1, h2, hvw⟩ := hv
  obtain ⟨e, he, _⟩ := C133_mean pe ne1 pos neg em lli qpe qne x2 ⟨P, N, em, em⟩ hd hw2 hm
    ⟨(x, some v), h1, by simp⟩
    ⟨(x, v), List.mem_append_left _ (mem_known.2 h1), (y, w), List.mem_append_left _ (mem_known.2 h2), hvw⟩
  have h0 := (C133_zero pe ne1 pos neg em lli qpe qne x2 ⟨P, N, em, em⟩ hd hw2 hm e he).2 (fun _ _ hm => hm)
  subst h0
  refine ⟨he, ?_, ?_⟩
  · have e1 : metricOf "V-Q" = .vq := by decide +kernel
    have e2 : metricSynthetic "V-Q" = .vq := by decide +kernel
    unfold error at he
    rw [e1] at he
    unfold syntheticError
    rw [e2, he]
  · intro lli' qpe' qne' x2' e he'
    rcases C133_below _ _ _ _ _ _ _ _ _ _ _ he' with h | h
    · exact h.1
    · rw [h]; norm_num

example : ∃ P N em, vqAlone samplePe sampleNe [] [] 0 100 100 1 = .ok (P, N, em) ∧
    error "V-Q" samplePe sampleNe [] [] 0 100 100 1 em = .ok (some 0) := by
  obtain ⟨P, N, em, h, hw, hv⟩ := sample_alone
  refine ⟨P, N, em, h, ?_⟩
  exact (C134_best samplePe sampleNe [] [] sampleNe 0 100 100 1 P N em rfl samplePe_distinct sampleNe_distinct (by norm_num)
    (by norm_num) ⟨_, List.mem_of_getElem? (samplePe_get 0 (by norm_num)), _,
      List.mem_of_getElem? (samplePe_get 1 (by norm_num)), by norm_num⟩ hw hv h).1

/-- a short measured profile, for the examples -/
def shortReal : Curve := [(0, some 3), (1 / 2, some 4)]

theorem sample_short : ∃ m, matchAh samplePe sampleNe [] [] 0 100 100 1 shortReal = .ok m :=
  (C108_refused samplePe sampleNe [] [] sampleNe samplePe sampleNe shortReal 0 100 100 1 rfl
    samplePe_distinct sampleNe_distinct (by norm_num) (by norm_num) sample_scale).2
    ⟨⟨280, 28, 27 / 10, 0, (sample_row ..).2 ⟨by norm_num, by norm_num, by norm_num, rfl⟩, by norm_num, by norm_num⟩,
      ⟨(0, some 3), by simp [shortReal], by simp⟩⟩

example : error "dVdQ" samplePe sampleNe [] [] 0 100 100 1 shortReal = .ok none := by
  obtain ⟨m, hm⟩ := sample_short
  refine C133_small_violated _ _ _ _ _ _ _ _ _ m hm ?_
  intro p hp
  simp only [shortReal, List.mem_cons, List.not_mem_nil, or_false] at hp
  rcases hp with rfl | rfl <;> norm_num

/-- electrodes of the wrong length cannot be emulated: the error is 100 -/
example : error "dQdV" [(0, some 3)] [(0, some 1)] [] [] 0 100 100 1 shortReal = .ok (some 100) := by
  apply C133_unmatched
  rintro ⟨m, hm⟩
  have : imposeScale [(0, some 3)] [(0, some 1)] [] [] 0 100 100 1 = .error .valueError := by decide +kernel
  unfold matchAh at hm
  rw [this] at hm
  cases hm

end Beep.Props.IntracellFit
