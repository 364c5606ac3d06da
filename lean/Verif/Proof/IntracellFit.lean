import Mathlib.Tactic.Positivity
import Verif.Model.IntracellFit
import Verif.Spec.IntracellFit
import Verif.Props.IntracellFeatures
/-
Helper lemmas for Props/IntracellFit.
-/
namespace Beep.IntracellFit
open Beep Pandas Beep.Intracell Beep.Spec.Intracell Beep.Spec.IntracellFit Beep.Props.Intracell Beep.Props.IntracellFeatures
open Beep.Interp (linspace length_linspace getElem?_linspace)

/-! ### curves on a grid -/

theorem present_distinct {c : Curve} (hc : Distinct c) : Distinct (present c) := hc.sublist (List.filter_sublist.map _)

/-- within its range a curve of known points has a value, between bounds of the known values -/
theorem interp_present {c : Curve} (hc : Distinct c) {a b : Rat} (hr : range (present c) = some (a, b)) {lo hi : Rat}
    (hb : ∀ q v, (q, some v) ∈ c → lo ≤ v ∧ v ≤ hi) {x : Rat} (h1 : a ≤ x) (h2 : x ≤ b) :
    ∃ v, interp (present c) x = some v ∧ lo ≤ v ∧ v ≤ hi := by
  have he := (range_iff ..).1 hr
  have val : ∀ p ∈ present c, ∃ v, p.2 = some v ∧ lo ≤ v ∧ v ≤ hi := by
    intro p hp
    obtain ⟨hp1, hp2⟩ := present_mem.1 hp
    obtain ⟨q, v⟩ := p
    cases v with
    | none => exact absurd rfl hp2
    | some v => exact ⟨v, rfl, hb q v hp1⟩
  rcases interp_onCurve (present c) (present_distinct hc) x with h | ⟨p, hp, q, hq, l1, l2, _, h⟩ | ⟨h, _⟩
  · exact val _ h
  · obtain ⟨u, hu, u1, u2⟩ := val p hp
    obtain ⟨w, hw, w1, w2⟩ := val q hq
    rcases h with ⟨a', b', ha', hb', h⟩ | ⟨h | h, _⟩
    · rw [hu] at ha'; rw [hw] at hb'
      cases ha'; cases hb'
      refine ⟨_, h, ?_, ?_⟩
      all_goals
        have hd : 0 < q.1 - p.1 := by linarith
        have t0 : 0 ≤ (x - p.1) / (q.1 - p.1) := div_nonneg (by linarith) hd.le
        have t1 : (x - p.1) / (q.1 - p.1) ≤ 1 := by rw [div_le_one hd]; linarith
        rw [mul_div_assoc]
        generalize (x - p.1) / (q.1 - p.1) = t at t0 t1
        nlinarith
    · rw [hu] at h; cases h
    · rw [hw] at h; cases h
  · exfalso
    obtain ⟨⟨p, hp, rfl⟩, ⟨q, hq, rfl⟩, _⟩ := he
    rcases h with h | h
    · exact absurd (h p hp) (not_lt.2 h1)
    · exact absurd (h q hq) (not_lt.2 h2)

/-- a curve given on a grid has the given values there -/
theorem interp_grid {a b : Rat} (hab : a < b) (f : Rat → Option Rat) {x : Rat} (hx : x ∈ linspace a b 1001) :
    interp ((linspace a b 1001).map (fun x => (x, f x))) x = f x := by
  have hd : Distinct ((linspace a b 1001).map (fun x => (x, f x))) := by
    unfold Distinct
    rw [List.map_map]
    have : (Prod.fst ∘ fun x => (x, f x)) = (id : Rat → Rat) := rfl
    rw [this, List.map_id]
    exact (Beep.Interp.linspace_strict a b 1001 hab).imp (fun h => ne_of_lt h)
  have hm : (x, f x) ∈ (linspace a b 1001).map (fun x => (x, f x)) := List.mem_map.2 ⟨x, hx, rfl⟩
  exact (interp_iff _ hd (List.ne_nil_of_mem hm) _ _).2 (Or.inl hm)

theorem ends_linspace (a b : Rat) : a ∈ linspace a b 1001 ∧ b ∈ linspace a b 1001 := by
  have h := even_linspace a b
  refine ⟨List.mem_of_getElem? (i := 0) ?_, List.mem_of_getElem? (i := 1000) ?_⟩
  · rw [h.2 0 (by norm_num)]; norm_num
  · rw [h.2 1000 (by norm_num)]; congr 1; push_cast; ring

theorem range_grid {a b : Rat} (hab : a ≤ b) (f : Rat → Option Rat) :
    range ((linspace a b 1001).map (fun x => (x, f x))) = some (a, b) := by
  rw [range_iff]
  refine ⟨⟨_, List.mem_map.2 ⟨a, (ends_linspace a b).1, rfl⟩, rfl⟩, ⟨_, List.mem_map.2 ⟨b, (ends_linspace a b).2, rfl⟩, rfl⟩, ?_⟩
  intro p hp
  obtain ⟨x, hx, rfl⟩ := List.mem_map.1 hp
  exact linspace_le hab hx

theorem present_id {c : Curve} (h : ∀ p ∈ c, p.2 ≠ none) : present c = c := by
  unfold present
  rw [List.filter_eq_self]
  intro p hp
  exact Option.isSome_iff_ne_none.2 (h p hp)

/-- what a resampled curve is -/
theorem resampled_ok {c em : Curve} (h : resampled c = .ok em) : ∃ a b, range (present c) = some (a, b) ∧ a ≤ b ∧
    em = (linspace a b 1001).map (fun x => (x, interp (present c) x)) := by
  unfold resampled at h
  cases hr : range (present c) with
  | none => rw [hr] at h; cases h
  | some r =>
    obtain ⟨a, b⟩ := r
    rw [hr] at h
    simp only [Except.ok.injEq] at h
    obtain ⟨⟨p, hp, rfl⟩, _, hall⟩ := (range_iff ..).1 hr
    exact ⟨_, b, rfl, (hall p hp).2, h.symm⟩

theorem resampled_total (c : Curve) : (∃ em, resampled c = .ok em) ↔ ∃ p ∈ c, p.2 ≠ none := by
  unfold resampled
  cases hr : range (present c) with
  | none =>
    rw [range_none] at hr
    constructor
    · rintro ⟨_, h⟩; cases h
    · rintro ⟨p, hp, hv⟩
      have := present_mem.2 ⟨hp, hv⟩
      rw [hr] at this; cases this
  | some r =>
    constructor
    · intro _
      obtain ⟨⟨p, hp, _⟩, _⟩ := (range_iff _ r.1 r.2).1 hr
      exact ⟨p, present_mem.1 hp⟩
    · intro _; exact ⟨_, rfl⟩

/-- every place of a resampled curve has a value, and the curve has the range of the original -/
theorem resampled_full {c em : Curve} (hc : Distinct c) (h : resampled c = .ok em) {lo hi : Rat}
    (hb : ∀ q v, (q, some v) ∈ c → lo ≤ v ∧ v ≤ hi) : ∀ p ∈ em, ∃ v, p.2 = some v ∧ lo ≤ v ∧ v ≤ hi := by
  obtain ⟨a, b, hr, hab, hem⟩ := resampled_ok h
  rw [hem]
  intro p hp
  obtain ⟨x, hx, he⟩ := List.mem_map.1 hp
  have := linspace_le hab hx
  rw [← he]
  exact interp_present hc hr hb this.1 this.2

/-! ### the emulated cell -/

/-- the parts of a successful emulation -/
theorem alone_ok {pe ne1 pos neg : Curve} {lli qpe qne x2 : Rat} {P N em : Curve}
    (h : alone pe ne1 pos neg lli qpe qne x2 = .ok (P, N, em)) : ∃ p n k z,
      imposeScale pe ne1 pos neg lli qpe qne x2 = .ok (p, n) ∧
      argminN ((clipped (fullCell p n)).map Prod.snd) = some k ∧ (clipped (fullCell p n))[k]? = some z ∧
      P = moveBy (- z.1) p ∧ N = moveBy (- z.1) n ∧ resampled (moveBy (- z.1) (clipped (fullCell p n))) = .ok em := by
  unfold alone at h
  cases hi : imposeScale pe ne1 pos neg lli qpe qne x2 with
  | error e => rw [hi] at h; cases h
  | ok r =>
    obtain ⟨p, n⟩ := r
    rw [hi] at h
    simp only at h
    cases hk : argminN ((clipped (fullCell p n)).map Prod.snd) with
    | none => rw [hk] at h; cases h
    | some k =>
      rw [hk] at h
      simp only at h
      cases hz : (clipped (fullCell p n))[k]? with
      | none => rw [hz] at h; cases h
      | some z =>
        rw [hz] at h
        simp only at h
        cases hs : resampled (moveBy (- z.1) (clipped (fullCell p n))) with
        | error e => rw [hs] at h; cases h
        | ok em' =>
          rw [hs] at h
          simp only [Except.ok.injEq, Prod.mk.injEq] at h
          obtain ⟨rfl, rfl, rfl⟩ := h
          exact ⟨p, n, k, z, rfl, hk, hz, rfl, rfl, hs⟩

/-- the electrodes of a scaling at different places have different capacities -/
theorem scale_distinct {pe ne1 pos neg ne p n : Curve} {lli qpe qne x2 : Rat} (hb : blend ne1 pos neg x2 = .ok ne)
    (hpe : Distinct pe) (hne : Distinct ne) (hqp : 0 < qpe) (hqn : 0 < qne) (hwide : ∃ r ∈ pe, ∃ s ∈ pe, r.1 ≠ s.1)
    (hi : imposeScale pe ne1 pos neg lli qpe qne x2 = .ok (p, n)) :
    p.map Prod.fst = n.map Prod.fst ∧ Distinct p ∧ Distinct (clipped (fullCell p n)) := by
  obtain ⟨hax, ⟨a0, b0, hev, _, _, hin, _⟩, h1, h2⟩ :=
    C107_scale pe ne1 pos neg ne p n lli qpe qne x2 hb hpe hne hqp hqn hi
  have hab : a0 < b0 := by
    obtain ⟨r, hr, s, hs, hrs⟩ := hwide
    have e : ∀ t : Rat, t / 100 * qpe = t * (qpe / 100) := fun t => by ring
    have h1 := hin r hr
    have h2 := hin s hs
    rw [e] at h1 h2
    have ap : 0 < qpe / 100 := by positivity
    rcases lt_or_gt_of_ne hrs with hlt | hlt
    · have := mul_lt_mul_of_pos_right hlt ap; linarith [h1.1, h2.2]
    · have := mul_lt_mul_of_pos_right hlt ap; linarith [h2.1, h1.2]
  have hpd : Distinct p := even_distinct hev hab
  refine ⟨hax, hpd, ?_⟩
  unfold Distinct
  rw [axis_clipped, axis_fullCell hax]
  exact hpd

theorem clipped_bounds {c : Curve} {d q v : Rat} (h : (q, some v) ∈ moveBy d (clipped c)) : 27 / 10 ≤ v ∧ v ≤ 42 / 10 := by
  unfold moveBy clipped at h
  rw [List.map_map] at h
  obtain ⟨p, _, hp⟩ := List.mem_map.1 h
  have := (Prod.mk.inj hp).2
  exact (clip_some.1 this).2

/-- a resampled curve on at least two places is its own measured profile and stays as it is -/
theorem resampled_fixed {c em : Curve} (hc : Distinct c) (h : resampled c = .ok em)
    (hw : ∃ p ∈ em, ∃ q ∈ em, p.1 ≠ q.1) {lo hi : Rat} (hb : ∀ q v, (q, some v) ∈ c → lo ≤ v ∧ v ≤ hi) :
    ∃ a b, a < b ∧ range (present c) = some (a, b) ∧ range em = some (a, b) ∧ present em = em ∧ Distinct em ∧
      em = (linspace a b 1001).map (fun x => (x, interp (present c) x)) ∧
      (linspace a b 1001).map (fun x => (x, interp em x)) = em := by
  have hfull := resampled_full hc h hb
  obtain ⟨a, b, hr, hab, hem⟩ := resampled_ok h
  have hlt : a < b := by
    rcases lt_or_eq_of_le hab with h | h
    · exact h
    · exfalso
      subst h
      obtain ⟨p, hp, q, hq, hpq⟩ := hw
      rw [hem] at hp hq
      obtain ⟨x, hx, rfl⟩ := List.mem_map.1 hp
      obtain ⟨y, hy, rfl⟩ := List.mem_map.1 hq
      have h1 := linspace_le (le_refl a) hx
      have h2 := linspace_le (le_refl a) hy
      exact hpq (by rw [le_antisymm h1.2 h1.1, le_antisymm h2.2 h2.1])
  refine ⟨a, b, hlt, hr, by rw [hem]; exact range_grid hab _, present_id ?_, ?_, hem, ?_⟩
  · intro p hp
    obtain ⟨v, hv, _⟩ := hfull p hp
    rw [hv]; simp
  · unfold Distinct
    rw [hem, map_fst_grid]
    exact (Beep.Interp.linspace_strict a b 1001 hlt).imp (fun h => ne_of_lt h)
  · rw [hem]
    apply List.map_congr_left
    intro x hx
    rw [interp_grid hlt _ hx]

theorem bounded (c : Curve) : ∃ lo hi : Rat, ∀ q v, (q, some v) ∈ c → lo ≤ v ∧ v ≤ hi := by
  induction c with
  | nil => exact ⟨0, 0, fun _ _ h => by cases h⟩
  | cons p c ih =>
    obtain ⟨lo, hi, h⟩ := ih
    obtain ⟨x, v⟩ := p
    cases v with
    | none =>
      refine ⟨lo, hi, fun q v hm => ?_⟩
      rcases List.mem_cons.1 hm with hm | hm
      · cases hm
      · exact h q v hm
    | some w =>
      refine ⟨min lo w, max hi w, fun q v hm => ?_⟩
      rcases List.mem_cons.1 hm with hm | hm
      · cases hm; exact ⟨min_le_right _ _, le_max_right _ _⟩
      · exact ⟨le_trans (min_le_left _ _) (h q v hm).1, le_trans (h q v hm).2 (le_max_left _ _)⟩

/-- the profiles of a match: the measured one is resampled -/
theorem matchAh_real {pe ne1 pos neg real : Curve} {lli qpe qne x2 : Rat} {m : Matched}
    (h : matchAh pe ne1 pos neg lli qpe qne x2 real = .ok m) : resampled real = .ok m.real ∧
      ∃ em, ∃ a b, range (present real) = some (a, b) ∧ m.emulated = (linspace a b 1001).map (fun x => (x, interp em x)) := by
  unfold matchAh at h
  cases hi : imposeScale pe ne1 pos neg lli qpe qne x2 with
  | error e => rw [hi] at h; cases h
  | ok r =>
    obtain ⟨p, n⟩ := r
    rw [hi] at h
    simp only at h
    cases hk : argminN ((clipped (fullCell p n)).map Prod.snd) with
    | none => rw [hk] at h; cases h
    | some k =>
      rw [hk] at h
      simp only at h
      cases hz : (clipped (fullCell p n))[k]? with
      | none => rw [hz] at h; cases h
      | some z =>
        rw [hz] at h
        simp only at h
        unfold onReal at h
        cases hg : range (present real) with
        | none => rw [hg] at h; cases h
        | some r =>
          obtain ⟨a, b⟩ := r
          rw [hg] at h
          simp only [Except.ok.injEq] at h
          refine ⟨?_, present (moveBy (- z.1) (clipped (fullCell p n))), a, b, rfl, by rw [← h]⟩
          unfold resampled
          rw [hg, ← h]

theorem resampled_wide {c em : Curve} (h : resampled c = .ok em) (hw : ∃ p ∈ c, ∃ q ∈ c, p.2 ≠ none ∧ q.2 ≠ none ∧ p.1 ≠ q.1) :
    ∃ p ∈ em, ∃ q ∈ em, p.1 ≠ q.1 := by
  obtain ⟨a, b, hr, hab, hem⟩ := resampled_ok h
  obtain ⟨p, hp, q, hq, hp2, hq2, hpq⟩ := hw
  obtain ⟨_, _, hall⟩ := (range_iff ..).1 hr
  have h1 := hall p (present_mem.2 ⟨hp, hp2⟩)
  have h2 := hall q (present_mem.2 ⟨hq, hq2⟩)
  have hlt : a < b := by
    rcases lt_or_eq_of_le hab with h | h
    · exact h
    · subst h; exact absurd (by rw [le_antisymm h1.2 h1.1, le_antisymm h2.2 h2.1]) hpq
  have m1 : (a, interp (present c) a) ∈ em := by rw [hem]; exact List.mem_map.2 ⟨a, (ends_linspace a b).1, rfl⟩
  have m2 : (b, interp (present c) b) ∈ em := by rw [hem]; exact List.mem_map.2 ⟨b, (ends_linspace a b).2, rfl⟩
  exact ⟨(a, interp (present c) a), m1, (b, interp (present c) b), m2, ne_of_lt hlt⟩

theorem kept_all {real emulated : Curve} (h : ∀ p ∈ real, p.2 ≠ none) (hl : real.length = emulated.length) :
    (kept real emulated).map Prod.fst = real ∧ (kept real emulated).map Prod.snd = emulated := by
  have : kept real emulated = real.zip emulated := by
    unfold kept
    rw [List.filter_eq_self]
    rintro ⟨p, q⟩ hm
    exact Option.isSome_iff_ne_none.2 (h p (List.of_mem_zip hm).1)
  rw [this]
  exact ⟨List.map_fst_zip (by omega), List.map_snd_zip (by omega)⟩

/-- taking the V-Q representation of a match changes nothing -/
theorem vq_eq {pe ne1 pos neg real : Curve} {lli qpe qne x2 : Rat} {m : Matched} (hreal : Distinct real)
    (hw : ∃ p ∈ real, ∃ q ∈ real, p.2 ≠ none ∧ q.2 ≠ none ∧ p.1 ≠ q.1)
    (h : matchAh pe ne1 pos neg lli qpe qne x2 real = .ok m) : vq pe ne1 pos neg lli qpe qne x2 real = .ok m := by
  obtain ⟨hres, em, a', b', hr', hem⟩ := matchAh_real h
  obtain ⟨lo, hi, hb⟩ := bounded real
  obtain ⟨a, b, hab, hr, hr2, hpres, _, hgrid, hfix⟩ := resampled_fixed hreal hres (resampled_wide hres hw) hb
  rw [hr] at hr'
  obtain ⟨rfl, rfl⟩ := Prod.mk.inj (Option.some.inj hr')
  have hall : ∀ p ∈ m.real, p.2 ≠ none := by
    intro p hp
    rw [← hpres] at hp
    exact (present_mem.1 hp).2
  have hl : m.real.length = m.emulated.length := by
    rw [hgrid, hem, List.length_map, List.length_map]
  obtain ⟨k1, k2⟩ := kept_all hall hl
  unfold vq
  rw [h]
  simp only
  rw [hpres, hr2]
  simp only
  rw [k1, k2, hfix]
  have : (linspace a b 1001).map (fun x => (x, interp m.emulated x)) = m.emulated := by
    rw [hem]
    apply List.map_congr_left
    intro x hx
    rw [interp_grid hab _ hx]
  rw [this]

/-- a cell emulated on its own, as measured profile, is matched by itself -/
theorem self_match {pe ne1 pos neg ne : Curve} {lli qpe qne x2 : Rat} {P N em : Curve}
    (hb : blend ne1 pos neg x2 = .ok ne) (hpe : Distinct pe) (hne : Distinct ne) (hqp : 0 < qpe) (hqn : 0 < qne)
    (hwide : ∃ r ∈ pe, ∃ s ∈ pe, r.1 ≠ s.1) (h : alone pe ne1 pos neg lli qpe qne x2 = .ok (P, N, em))
    (hw : ∃ p ∈ em, ∃ q ∈ em, p.1 ≠ q.1) :
    matchAh pe ne1 pos neg lli qpe qne x2 em = .ok ⟨P, N, em, em⟩ ∧ resampled em = .ok em ∧ Distinct em := by
  obtain ⟨p, n, k, z, hi, hk, hz, rfl, rfl, hs⟩ := alone_ok h
  obtain ⟨hax, hpd, hcd⟩ := scale_distinct hb hpe hne hqp hqn hwide hi
  obtain ⟨a, b, hab, hr, hr2, hpres, hd, hgrid, hfix⟩ :=
    resampled_fixed (moveBy_distinct hcd) hs hw (fun q v hm => clipped_bounds hm)
  refine ⟨?_, ?_, hd⟩
  · unfold matchAh
    rw [hi]
    simp only
    rw [hk]
    simp only
    rw [hz]
    simp only
    unfold onReal
    rw [hpres, hr2]
    simp only
    rw [hfix, ← hgrid]
  · unfold resampled
    rw [hpres, hr2]
    simp only
    rw [hfix]

end Beep.IntracellFit
