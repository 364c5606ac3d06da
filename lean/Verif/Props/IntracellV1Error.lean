import Verif.Props.IntracellV1
/-
C141: the errors that the fits of version 1 of the intracell analysis minimise.
-/
namespace Beep.Props.IntracellV1
open Beep Pandas Beep.Intracell Beep.IntracellFit Beep.IntracellV1 Beep.Spec.Intracell Beep.Spec.IntracellV1
open Beep.Props.Intracell Beep.Props.IntracellFit
open Beep.Interp (linspace length_linspace getElem?_linspace)

theorem matchV3_real {pe ne1 pos neg real : Curve} {lli lamPe lamNe x2 : Rat} {m : Matched}
    (h : matchV3 pe ne1 pos neg lli lamPe lamNe x2 real = .ok m) : resampled real = .ok m.real ∧
      ∃ em, ∃ a b, range (present real) = some (a, b) ∧ m.emulated = (linspace a b 1001).map (fun x => (x, interp em x)) := by
  unfold matchV3 at h
  cases hi : imposeDegradation pe ne1 pos neg lli lamPe lamNe x2 with
  | error e => rw [hi] at h; cases h
  | ok r =>
    obtain ⟨p, n⟩ := r
    rw [hi] at h
    simp only at h
    cases hk : range (present (fullCell p n)) with
    | none => rw [hk] at h; cases h
    | some z =>
      obtain ⟨z, _⟩ := z
      rw [hk] at h
      simp only at h
      unfold onReal at h
      cases hg : range (present real) with
      | none => rw [hg] at h; cases h
      | some r =>
        obtain ⟨a, b⟩ := r
        rw [hg] at h
        simp only [Except.ok.injEq] at h
        refine ⟨?_, present (moveBy (- z) (fullCell p n)), a, b, rfl, by rw [← h]⟩
        unfold resampled
        rw [hg, ← h]

/-- what the profiles of a match are: both on 1001 different places, the measured one with a voltage everywhere -/
theorem matchV3_rows {pe ne1 pos neg real : Curve} {lli lamPe lamNe x2 : Rat} {m : Matched} (hreal : Distinct real)
    (hw : ∃ p ∈ real, ∃ q ∈ real, p.2 ≠ none ∧ q.2 ≠ none ∧ p.1 ≠ q.1)
    (h : matchV3 pe ne1 pos neg lli lamPe lamNe x2 real = .ok m) :
    vSoc pe ne1 pos neg lli lamPe lamNe x2 real = .ok m ∧ (∀ p ∈ m.real, p.2 ≠ none) ∧
      m.real.map Prod.fst = m.emulated.map Prod.fst ∧ m.real.length = 1001 ∧ m.emulated.length = 1001 := by
  obtain ⟨hres, em, a', b', hr', hem⟩ := matchV3_real h
  obtain ⟨lo, hi, hb⟩ := bounded real
  obtain ⟨a, b, hab, hr, hr2, hpres, _, hgrid, hfix⟩ := resampled_fixed hreal hres (resampled_wide hres hw) hb
  rw [hr] at hr'
  obtain ⟨rfl, rfl⟩ := Prod.mk.inj (Option.some.inj hr')
  have hall : ∀ p ∈ m.real, p.2 ≠ none := by
    intro p hp
    rw [← hpres] at hp
    exact (present_mem.1 hp).2
  have hl : m.real.length = m.emulated.length := by
    rw [hgrid, hem, List.length_map, List.length_map]
  obtain ⟨k1, k2⟩ := kept_all hall hl
  have l1 : m.real.length = 1001 := by rw [hgrid, List.length_map, length_linspace]
  refine ⟨?_, hall, ?_, l1, by rw [← hl, l1]⟩
  · unfold vSoc
    rw [h]
    simp only
    rw [hpres, hr2]
    simp only
    rw [k1, k2, hfix]
    have : (linspace a b 1001).map (fun x => (x, interp m.emulated x)) = m.emulated := by
      rw [hem]
      apply List.map_congr_left
      intro x hx
      rw [interp_grid hab _ hx]
    rw [this]
  · rw [hgrid, hem, List.map_map, List.map_map]
    rfl

/-- the squared differences of two profiles, row by row -/
def rowGap (p q : Rat × Option Rat) : Rat := match p.2, q.2 with
  | some v, some w => (v - w) ^ 2
  | _, _ => 0

theorem squaredGap_zip (a b : Curve) (hl : a.length = b.length) : SquaredGap a b (List.zipWith rowGap a b).sum := by
  refine ⟨List.zipWith rowGap a b, by rw [List.length_zipWith, hl, Nat.min_self], rfl, ?_⟩
  intro k x y v w h1 h2
  have e : (List.zipWith rowGap a b)[k]? = some (rowGap (x, v) (y, w)) := by
    rw [List.getElem?_zipWith, h1, h2]
  rw [e]
  constructor
  · rintro s t rfl rfl
    unfold rowGap
    simp only [Option.some.injEq]
    ring
  · rintro (rfl | rfl)
    · rfl
    · unfold rowGap; cases v <;> rfl

theorem squaredGap_unique {a b : Curve} (hl : a.length = b.length) {t : Rat} (h : SquaredGap a b t) :
    t = (List.zipWith rowGap a b).sum := by
  obtain ⟨ds, h1, rfl, h2⟩ := h
  congr 1
  apply List.ext_getElem?
  intro k
  by_cases hk : k < b.length
  · obtain ⟨p, hp⟩ : ∃ p, a[k]? = some p := ⟨_, List.getElem?_eq_getElem (by omega)⟩
    obtain ⟨q, hq⟩ : ∃ q, b[k]? = some q := ⟨_, List.getElem?_eq_getElem hk⟩
    rw [List.getElem?_zipWith, hp, hq]
    obtain ⟨x, v⟩ := p
    obtain ⟨y, w⟩ := q
    obtain ⟨g1, g2⟩ := h2 k x y v w hp hq
    cases v with
    | none => rw [g2 (Or.inl rfl)]; rfl
    | some s => cases w with
      | none => rw [g2 (Or.inr rfl)]; rfl
      | some t =>
        rw [g1 s t rfl rfl]
        unfold rowGap
        simp only [Option.some.injEq]
        ring
  · rw [List.getElem?_eq_none (by omega), List.getElem?_eq_none (by rw [List.length_zipWith]; omega)]

theorem bothRows_sum : ∀ a b : Curve, (bothRows a b).sum = (List.zipWith rowGap a b).sum := by
  intro a
  induction a with
  | nil => intro b; rfl
  | cons p a ih =>
    intro b
    cases b with
    | nil => rfl
    | cons q b =>
      have ih' := ih b
      unfold bothRows at ih' ⊢
      rw [List.zip_cons_cons, List.filterMap_cons, List.zipWith_cons_cons, List.sum_cons, ← ih']
      unfold rowGap
      cases hp : p.2 <;> cases hq : q.2 <;> simp

theorem gaps_sum : ∀ a b : Curve, a.map Prod.fst = b.map Prod.fst → (∀ p ∈ a, p.2 ≠ none) →
    none ∉ gaps a b ∧ ((gaps a b).filterMap id).sum = (List.zipWith rowGap a b).sum := by
  intro a
  induction a with
  | nil => intro b _ _; exact ⟨by unfold gaps; simp, rfl⟩
  | cons p a ih =>
    intro b hax hall
    cases b with
    | nil => cases hax
    | cons q b =>
      rw [List.map_cons, List.map_cons, List.cons.injEq] at hax
      obtain ⟨ih1, ih2⟩ := ih b hax.2 (fun r hr => hall r (List.mem_cons_of_mem _ hr))
      unfold gaps at ih1 ih2 ⊢
      rw [List.zip_cons_cons, List.filterMap_cons, List.zipWith_cons_cons, List.sum_cons]
      have hp := hall p List.mem_cons_self
      cases hp2 : p.2 with
      | none => exact absurd hp2 hp
      | some v => cases hq2 : q.2 with
        | none =>
          simp only [Option.map_none]
          refine ⟨ih1, ?_⟩
          rw [ih2]
          unfold rowGap
          rw [hp2, hq2]
          simp
        | some w =>
          simp only [Option.map_some]
          refine ⟨?_, ?_⟩
          · intro hm
            rcases List.mem_cons.1 hm with h | h
            · cases h
            · exact ih1 h
          · rw [List.filterMap_cons_some (f := id) (a := some ((p.1 - q.1) ^ 2 + (v - w) ^ 2)) rfl, List.sum_cons, ih2, hax.1]
            unfold rowGap
            rw [hp2, hq2]
            simp

theorem missing_blanks (c : Curve) : missing c = blanks c := by
  unfold missing blanks
  rw [← List.countP_eq_length_filter]
  apply List.countP_congr
  intro p _
  cases p.2 <;> simp

theorem rowGap_nonneg (p q : Rat × Option Rat) : 0 ≤ rowGap p q := by
  unfold rowGap
  split
  · exact sq_nonneg _
  · exact le_refl _

theorem zip_nonneg (a b : Curve) : ∀ d ∈ List.zipWith rowGap a b, 0 ≤ d := by
  intro d hd
  rw [List.mem_iff_getElem?] at hd
  obtain ⟨k, hk⟩ := hd
  rw [List.getElem?_zipWith] at hk
  cases hp : a[k]? with
  | none => rw [hp] at hk; cases hk
  | some p => cases hq : b[k]? with
    | none => rw [hp, hq] at hk; cases hk
    | some q =>
      rw [hp, hq] at hk
      rw [← Option.some.inj hk]
      exact rowGap_nonneg p q

/-- the error of a match -/
theorem errorV1_eq {pe ne1 pos neg real : Curve} {lli lamPe lamNe x2 : Rat} {m : Matched} (hreal : Distinct real)
    (hw : ∃ p ∈ real, ∃ q ∈ real, p.2 ≠ none ∧ q.2 ≠ none ∧ p.1 ≠ q.1)
    (h : matchV3 pe ne1 pos neg lli lamPe lamNe x2 real = .ok m) :
    errorV1 pe ne1 pos neg lli lamPe lamNe x2 real =
      .ok (Real.sqrt (((List.zipWith rowGap m.real m.emulated).sum : Rat) : ℝ) + (blanks m.emulated : ℝ) / 1000) := by
  obtain ⟨hv, hall, hax, _, _⟩ := matchV3_rows hreal hw h
  obtain ⟨g1, g2⟩ := gaps_sum _ _ hax hall
  unfold errorV1
  rw [hv]
  simp only
  unfold apart
  rw [if_neg g1, g2, missing_blanks]
  unfold caught100
  simp only
  congr 1
  ring

/-- The error of the fit is the root of the sum of the squared voltage differences over the rows in which the emulated
cell has a voltage, and a thousandth for each of the other rows. -/
theorem C141_value (pe ne1 pos neg real : Curve) (lli lamPe lamNe x2 : Rat) (m : Matched) (hreal : Distinct real)
    (hw : ∃ p ∈ real, ∃ q ∈ real, p.2 ≠ none ∧ q.2 ≠ none ∧ p.1 ≠ q.1)
    (h : matchV3 pe ne1 pos neg lli lamPe lamNe x2 real = .ok m) (total : Rat) (ht : SquaredGap m.real m.emulated total) :
    errorV1 pe ne1 pos neg lli lamPe lamNe x2 real = .ok (Real.sqrt (total : ℝ) + (blanks m.emulated : ℝ) / 1000) := by
  obtain ⟨_, _, _, l1, l2⟩ := matchV3_rows hreal hw h
  rw [errorV1_eq hreal hw h, squaredGap_unique (by omega) ht]

/-- It is 0 exactly if the emulated cell has the measured voltage in every row. -/
theorem C141_zero (pe ne1 pos neg real : Curve) (lli lamPe lamNe x2 : Rat) (m : Matched) (hreal : Distinct real)
    (hw : ∃ p ∈ real, ∃ q ∈ real, p.2 ≠ none ∧ q.2 ≠ none ∧ p.1 ≠ q.1)
    (h : matchV3 pe ne1 pos neg lli lamPe lamNe x2 real = .ok m) :
    (∃ e, errorV1 pe ne1 pos neg lli lamPe lamNe x2 real = .ok e ∧ 0 ≤ e) ∧
    (errorV1 pe ne1 pos neg lli lamPe lamNe x2 real = .ok 0 ↔ m.emulated = m.real) := by
  obtain ⟨_, hall, hax, l1, l2⟩ := matchV3_rows hreal hw h
  rw [errorV1_eq hreal hw h]
  have p1 := Real.sqrt_nonneg (((List.zipWith rowGap m.real m.emulated).sum : Rat) : ℝ)
  have p2 : (0 : ℝ) ≤ (blanks m.emulated : ℝ) / 1000 := by positivity
  refine ⟨⟨_, rfl, by linarith⟩, ?_⟩
  rw [Except.ok.injEq]
  constructor
  · intro h0
    have s0 : Real.sqrt (((List.zipWith rowGap m.real m.emulated).sum : Rat) : ℝ) = 0 := by linarith
    have b0 : (blanks m.emulated : ℝ) = 0 := by linarith
    have b0' : blanks m.emulated = 0 := by exact_mod_cast b0
    have t0 : (List.zipWith rowGap m.real m.emulated).sum = 0 := by
      have hn : (0 : ℝ) ≤ (((List.zipWith rowGap m.real m.emulated).sum : Rat) : ℝ) := by
        exact_mod_cast List.sum_nonneg (zip_nonneg _ _)
      have := (Real.sqrt_eq_zero hn).1 s0
      exact_mod_cast this
    apply List.ext_getElem?
    intro k
    by_cases hk : k < 1001
    · obtain ⟨p, hp⟩ : ∃ p, m.real[k]? = some p := ⟨_, List.getElem?_eq_getElem (by omega)⟩
      obtain ⟨q, hq⟩ : ∃ q, m.emulated[k]? = some q := ⟨_, List.getElem?_eq_getElem (by omega)⟩
      have hx : p.1 = q.1 := by
        have := congrArg (fun l => l[k]?) hax
        simp only [List.getElem?_map, hp, hq, Option.map_some, Option.some.injEq] at this
        exact this
      have hz : rowGap p q = 0 := by
        have hm : rowGap p q ∈ List.zipWith rowGap m.real m.emulated :=
          List.mem_of_getElem? (i := k) (by rw [List.getElem?_zipWith, hp, hq])
        have := List.single_le_sum (zip_nonneg _ _) _ hm
        exact le_antisymm (by rw [← t0]; exact this) (rowGap_nonneg p q)
      have hq2 : q.2 ≠ none := by
        intro hn
        have : 0 < blanks m.emulated := by
          unfold blanks
          rw [List.countP_pos_iff]
          exact ⟨q, List.mem_of_getElem? hq, by simp [hn]⟩
        omega
      have hp2 := hall p (List.mem_of_getElem? hp)
      rw [hp, hq]
      obtain ⟨x, v⟩ := p
      obtain ⟨y, w⟩ := q
      cases v with
      | none => exact absurd rfl hp2
      | some v => cases w with
        | none => exact absurd rfl hq2
        | some w =>
          have : (v - w) ^ 2 = 0 := hz
          have : v = w := by
            have := pow_eq_zero_iff (n := 2) (by norm_num) |>.1 this
            linarith
          subst this
          simp only at hx
          rw [hx]
    · rw [List.getElem?_eq_none (by omega), List.getElem?_eq_none (by omega)]
  · intro he
    rw [he]
    have t0 : (List.zipWith rowGap m.real m.real).sum = 0 := by
      apply List.sum_eq_zero
      intro d hd
      rw [List.mem_iff_getElem?] at hd
      obtain ⟨k, hk⟩ := hd
      rw [List.getElem?_zipWith] at hk
      cases hp : m.real[k]? with
      | none => rw [hp] at hk; cases hk
      | some p =>
        rw [hp] at hk
        simp only [Option.some.injEq] at hk
        rw [← hk]
        unfold rowGap
        cases p.2 <;> simp
    have b0 : blanks m.real = 0 := by
      unfold blanks
      rw [List.countP_eq_zero]
      intro p hp
      simp [hall p hp]
    rw [t0, b0]
    simp

/-- Parameters at which no cell can be emulated have the error 100, which is above the error of every match whose
voltages are within 3 V of the measured ones. -/
theorem C141_loses (pe ne1 pos neg real : Curve) (lli lamPe lamNe x2 : Rat) (m : Matched) (hreal : Distinct real)
    (hw : ∃ p ∈ real, ∃ q ∈ real, p.2 ≠ none ∧ q.2 ≠ none ∧ p.1 ≠ q.1)
    (h : matchV3 pe ne1 pos neg lli lamPe lamNe x2 real = .ok m)
    (h3 : ∀ (k : Nat) (x y v w : Rat), m.real[k]? = some (x, some v) → m.emulated[k]? = some (y, some w) →
      v - w ≤ 3 ∧ w - v ≤ 3) :
    ∃ e, errorV1 pe ne1 pos neg lli lamPe lamNe x2 real = .ok e ∧ e < 100 := by
  obtain ⟨_, hall, hax, l1, l2⟩ := matchV3_rows hreal hw h
  refine ⟨_, errorV1_eq hreal hw h, ?_⟩
  have hs : (List.zipWith rowGap m.real m.emulated).sum ≤ 9009 := by
    have : ∀ d ∈ List.zipWith rowGap m.real m.emulated, d ≤ 9 := by
      intro d hd
      rw [List.mem_iff_getElem?] at hd
      obtain ⟨k, hk⟩ := hd
      rw [List.getElem?_zipWith] at hk
      cases hp : m.real[k]? with
      | none => rw [hp] at hk; cases hk
      | some p => cases hq : m.emulated[k]? with
        | none => rw [hp, hq] at hk; cases hk
        | some q =>
          rw [hp, hq] at hk
          rw [← Option.some.inj hk]
          obtain ⟨x, v⟩ := p
          obtain ⟨y, w⟩ := q
          unfold rowGap
          cases v with
          | none => simp
          | some v => cases w with
            | none => simp
            | some w =>
              obtain ⟨a1, a2⟩ := h3 k x y v w hp hq
              simp only
              nlinarith
    have := List.sum_le_card_nsmul _ _ this
    rw [List.length_zipWith, l1, l2] at this
    norm_num at this
    exact this
  have r1 : Real.sqrt (((List.zipWith rowGap m.real m.emulated).sum : Rat) : ℝ) < 95 := by
    rw [Real.sqrt_lt' (by norm_num)]
    have : (((List.zipWith rowGap m.real m.emulated).sum : Rat) : ℝ) ≤ 9009 := by exact_mod_cast hs
    linarith
  have r2 : (blanks m.emulated : ℝ) ≤ 1001 := by
    have : blanks m.emulated ≤ 1001 := by
      unfold blanks
      rw [← l2]
      exact List.countP_le_length
    exact_mod_cast this
  linarith

/-- The error 100 of parameters that leave no common voltage of the two electrodes. -/
theorem C141_refused (pe ne1 pos neg real p n : Curve) (lli lamPe lamNe x2 : Rat)
    (hi : imposeDegradation pe ne1 pos neg lli lamPe lamNe x2 = .ok (p, n)) (hax : p.map Prod.fst = n.map Prod.fst)
    (hno : ∀ k x a b, ¬ RowAt p n k x a b) : errorV1 pe ne1 pos neg lli lamPe lamNe x2 real = .ok 100 := by
  have : present (fullCell p n) = [] := by
    rw [List.eq_nil_iff_forall_not_mem]
    rintro ⟨x, v⟩ hm
    obtain ⟨h1, h2⟩ := present_mem.1 hm
    obtain ⟨k, hk⟩ := List.getElem?_of_mem h1
    obtain ⟨a, b, ha, hb, he⟩ := (fullCell_getElem? p n hax k x v).1 hk
    cases v with
    | none => exact h2 rfl
    | some w =>
      obtain ⟨a, b, rfl, rfl, _⟩ := subN_some.1 he.symm
      exact hno k x a b ⟨ha, hb⟩
  unfold errorV1 vSoc matchV3
  rw [hi]
  simp only
  rw [this]
  rfl

/-- The error raises `KeyError`, whatever the parameters, for pristine electrodes without a common voltage. -/
theorem C141_raises_violated (pe ne real : Curve) (lli lamPe lamNe x2 : Rat) (hax : pe.map Prod.fst = ne.map Prod.fst)
    (hno : ¬ ∃ k x a b, RowAt pe ne k x a b) : errorV1 pe ne [] [] lli lamPe lamNe x2 real = .error .keyError := by
  have hb : blend ne [] [] x2 = .ok ne := rfl
  have hu : upperSetpoint pe ne = .error .keyError := by
    unfold upperSetpoint
    rw [(row_none hax upperV).2 hno]
  unfold errorV1 vSoc matchV3 imposeDegradation
  rw [hb]
  simp only
  rw [hu]
  rfl

/-- The error of the initial fit: the root of the sum of the squared voltage differences over the rows in which both
profiles have a voltage, and a hundredth for each row without an emulated voltage. -/
theorem C141_initial (spline : Curve → Rat → Option Rat) (pe ne1 pos neg real : Curve) (ratio offset x2 : Rat)
    (m : Matched) (h : initialMatch spline pe ne1 pos neg ratio offset x2 real = .ok m)
    (total : Rat) (ht : SquaredGap m.real m.emulated total) :
    initialError spline pe ne1 pos neg ratio offset x2 real =
      .ok (Real.sqrt (total : ℝ) + (blanks m.emulated : ℝ) / 100) := by
  have hl : m.real.length = m.emulated.length := by
    cases ha : anode ne1 pos neg x2 with
    | error e => unfold initialMatch at h; rw [ha] at h; cases h
    | ok ne =>
      obtain ⟨p, n, k, z, lo, top, _, _, _, _, _, _, _, hm⟩ := initial_parts ha h
      rw [hm]
      simp only
      rw [List.length_map, List.length_map]
  unfold initialError
  rw [h]
  simp only
  rw [bothRows_sum, missing_blanks, squaredGap_unique hl ht]
  congr 1
  ring

/-- The initial fit has no error for parameters at which no row is within the voltage limits: its function raises
`ValueError`. -/
theorem C141_initial_raises_violated (spline : Curve → Rat → Option Rat) (pe ne1 pos neg ne real : Curve)
    (ratio offset x2 : Rat) (ha : Anode ne1 pos neg x2 ne)
    (h : (pe.length ≠ 1001 ∨ ne.length ≠ 1001) ∨ ∃ p n, realign (affine ratio offset pe) ne = .ok (p, n) ∧
      p.map Prod.fst = n.map Prod.fst ∧ ∀ k x a b, RowAt p n k x a b → ¬ Within a b) :
    initialError spline pe ne1 pos neg ratio offset x2 real = .error .valueError := by
  unfold initialError
  rw [C140_refused spline pe ne1 pos neg ne real ratio offset x2 ha h]

/-! ### losing a part of the profile -/

theorem realign_fixed {p n : Curve} (hp : p.map Prod.fst = linspace 0 100 1001) (hn : n.map Prod.fst = linspace 0 100 1001) :
    realign p n = .ok (p, n) := by
  have lp : p.length = 1001 := by rw [← List.length_map (f := Prod.fst), hp, length_linspace]
  have ln : n.length = 1001 := by rw [← List.length_map (f := Prod.fst), hn, length_linspace]
  have in_p : ∀ x, x ∈ linspace 0 100 1001 → ∃ r ∈ p, r.1 = x := by
    intro x hx; rw [← hp] at hx; obtain ⟨r, hr, he⟩ := List.mem_map.1 hx; exact ⟨r, hr, he⟩
  have hr : range (p ++ n) = some (0, 100) := by
    rw [range_iff]
    obtain ⟨r1, h1, e1⟩ := in_p 0 (ends_linspace 0 100).1
    obtain ⟨r2, h2, e2⟩ := in_p 100 (ends_linspace 0 100).2
    refine ⟨⟨r1, List.mem_append_left _ h1, e1⟩, ⟨r2, List.mem_append_left _ h2, e2⟩, ?_⟩
    intro q hq
    have : q.1 ∈ linspace 0 100 1001 := by
      rcases List.mem_append.1 hq with hq | hq
      · rw [← hp]; exact List.mem_map_of_mem hq
      · rw [← hn]; exact List.mem_map_of_mem hq
    exact IntracellFeatures.linspace_le (by norm_num) this
  have fix : ∀ c : Curve, c.map Prod.fst = linspace 0 100 1001 →
      (linspace 0 100 1001).map (fun x => (x, interp c x)) = c := by
    intro c hc
    have hd : Distinct c := even_distinct (by rw [hc]; exact even_linspace 0 100) (by norm_num)
    rw [← hc, List.map_map]
    conv_rhs => rw [← List.map_id c]
    apply List.map_congr_left
    intro q hq
    have : interp c q.1 = q.2 := (interp_iff c hd (List.ne_nil_of_mem hq) _ _).2 (Or.inl hq)
    simp only [Function.comp, this, id]
  unfold realign
  rw [if_pos ⟨lp, ln⟩, hr]
  simp only
  rw [fix p hp, fix n hn]

/-- an electrode of the constant voltage `v` -/
def flat (v : Rat) : Curve := (linspace 0 100 1001).map (fun x => (x, some v))

theorem flat_axis (v : Rat) : (flat v).map Prod.fst = linspace 0 100 1001 := by
  unfold flat; rw [List.map_map]; exact List.map_id'' (fun _ => rfl) _

theorem flat_mem {v : Rat} {p : Rat × Option Rat} (h : p ∈ flat v) : p.2 = some v ∧ 0 ≤ p.1 ∧ p.1 ≤ 100 := by
  obtain ⟨x, hx, rfl⟩ := List.mem_map.1 h
  exact ⟨rfl, IntracellFeatures.linspace_le (by norm_num) hx⟩

theorem flat_distinct (v : Rat) : Distinct (flat v) :=
  even_distinct (by rw [flat_axis]; exact even_linspace 0 100) (by norm_num)

theorem flat_length (v : Rat) : (flat v).length = 1001 := by unfold flat; rw [List.length_map, length_linspace]

theorem flat_get (v : Rat) {k : Nat} (hk : k < 1001) : (flat v)[k]? = some ((k : Rat) / 10, some v) := by
  unfold flat
  rw [List.getElem?_map, (even_linspace 0 100).2 k hk]
  have : (0 : Rat) + (k : Rat) * (100 - 0) / 1000 = (k : Rat) / 10 := by ring
  rw [this]
  rfl

theorem flat_row (v w : Rat) : RowAt (flat v) (flat w) 0 0 v w := by
  unfold RowAt
  rw [flat_get v (by norm_num), flat_get w (by norm_num)]
  simp

/-- a curve of a constant voltage has no other values -/
theorem onCurve_const {c : Curve} {v : Rat} (hc : ∀ p ∈ c, p.2 = some v) {x : Rat} {w : Option Rat} (h : OnCurve c x w) :
    (w = some v ∧ (∃ p ∈ c, p.1 ≤ x) ∧ ∃ p ∈ c, x ≤ p.1) ∨ w = none := by
  rcases h with h | ⟨p, hp, q, hq, h1, h2, _, hb⟩ | ⟨_, h⟩
  · exact Or.inl ⟨hc _ h, ⟨_, h, le_refl _⟩, _, h, le_refl _⟩
  · rcases hb with ⟨a, b, ha, hb, rfl⟩ | ⟨_, h⟩
    · rw [hc p hp] at ha
      rw [hc q hq] at hb
      obtain rfl := Option.some.inj ha
      obtain rfl := Option.some.inj hb
      exact Or.inl ⟨by congr 1; ring, ⟨p, hp, h1.le⟩, q, hq, h2.le⟩
    · exact Or.inr h
  · exact Or.inr h

theorem missing_late {c : Curve} (hl : c.length = 1001) (h : ∀ (k : Nat) p, 501 ≤ k → c[k]? = some p → p.2 = none) :
    500 ≤ blanks c := by
  unfold blanks
  rw [← List.take_append_drop 501 c, List.countP_append]
  have : (c.drop 501).countP (fun p => decide (p.2 = none)) = (c.drop 501).length := by
    rw [List.countP_eq_length]
    intro p hp
    obtain ⟨k, hk⟩ := List.getElem?_of_mem hp
    rw [List.getElem?_drop] at hk
    simp [h _ p (by omega) hk]
  rw [this, List.length_drop, hl]
  omega

theorem flat_sum {a b : Rat} : ∀ r e : Curve, r.length = e.length → (∀ p ∈ r, p.2 = some a) →
    (∀ p ∈ e, p.2 = some b ∨ p.2 = none) →
    (List.zipWith rowGap r e).sum + (a - b) ^ 2 * (blanks e : Rat) = (a - b) ^ 2 * (e.length : Rat) := by
  intro r
  induction r with
  | nil =>
    intro e hl _ _
    have : e = [] := List.length_eq_zero_iff.1 hl.symm
    subst this
    simp [blanks]
  | cons p r ih =>
    intro e hl hr he
    cases e with
    | nil => cases hl
    | cons q e =>
      have ih' := ih e (by simpa using hl) (fun x hx => hr x (List.mem_cons_of_mem _ hx))
        (fun x hx => he x (List.mem_cons_of_mem _ hx))
      unfold blanks at ih' ⊢
      rw [List.zipWith_cons_cons, List.sum_cons, List.countP_cons, List.length_cons]
      have hp := hr p List.mem_cons_self
      rcases he q List.mem_cons_self with hq | hq
      · have g : rowGap p q = (a - b) ^ 2 := by unfold rowGap; rw [hp, hq]
        rw [g, hq]
        simp only [reduceCtorEq, decide_false, Bool.false_eq_true, if_false]
        push_cast
        linarith
      · have g : rowGap p q = 0 := by unfold rowGap; rw [hp, hq]
        rw [g, hq]
        simp only [decide_true, if_true]
        push_cast
        linarith

/-- the facts about `flat` used below, of a curve known only by them -/
structure IsFlat (c : Curve) (v : Rat) : Prop where
  axis : c.map Prod.fst = linspace 0 100 1001
  mem : ∀ p ∈ c, p.2 = some v ∧ 0 ≤ p.1 ∧ p.1 ≤ 100
  distinct : Distinct c
  length : c.length = 1001
  get : ∀ k : Nat, k < 1001 → c[k]? = some ((k : Rat) / 10, some v)
  present : present c = c
  range : range c = some (0, 100)
  value : ∀ x ∈ linspace 0 100 1001, interp c x = some v

theorem flat_is (v : Rat) : IsFlat (flat v) v where
  axis := flat_axis v
  mem := fun _ h => flat_mem h
  distinct := flat_distinct v
  length := flat_length v
  get := fun _ h => flat_get v h
  present := present_id (fun p hp => by rw [(flat_mem hp).1]; exact Option.some_ne_none _)
  range := by unfold flat; exact range_grid (by norm_num) _
  value := fun x hx => by unfold flat; exact interp_grid (by norm_num) _ hx

theorem IsFlat.row {A B : Curve} {v w : Rat} (hA : IsFlat A v) (hB : IsFlat B w) : ∃ k x a b, RowAt A B k x a b :=
  ⟨0, _, v, w, hA.get 0 (by norm_num), hB.get 0 (by norm_num)⟩

theorem IsFlat.some {A : Curve} {v : Rat} (hA : IsFlat A v) : ∃ r ∈ A, r.2 ≠ none :=
  ⟨_, List.mem_of_getElem? (hA.get 0 (by norm_num)), Option.some_ne_none _⟩

/-- a flat cell without losses covers the measured profile -/
theorem flat_whole {A B R : Curve} {r : Rat} (hA : IsFlat A 3) (hB : IsFlat B 0) (hR : IsFlat R r) :
    ∃ m, matchV3 A B [] [] 0 0 0 1 R = .ok m ∧ (∀ p ∈ m.emulated, p.2 = some 3) := by
  have hov := hA.row hB
  have hi := degradation_zero (x2 := 1) hA.length hB.length (by rw [hA.axis, hB.axis]) hov
    (realign_fixed hA.axis hB.axis)
  obtain ⟨m, hm⟩ := matchV3_total (pos := []) (neg := []) hi (by rw [hA.axis, hB.axis]) hov hR.some
  refine ⟨m, hm, ?_⟩
  have hfull : fullCell A B = A := by
    apply List.ext_getElem?
    intro k
    unfold fullCell
    rw [List.getElem?_zipWith]
    by_cases hk : k < 1001
    · rw [hA.get k hk, hB.get k hk]
      simp [subN]
    · rw [List.getElem?_eq_none (l := A) (by rw [hA.length]; omega)]
  unfold matchV3 at hm
  rw [hi] at hm
  simp only at hm
  rw [hfull, hA.present, hA.range] at hm
  simp only at hm
  have hmv : ∀ c : Curve, moveBy (-0) c = c := by
    intro c; rw [moveBy_eq]; exact affine_id _ _ rfl (by norm_num) c
  rw [hmv, hmv] at hm
  unfold onReal at hm
  rw [hR.present, hR.range] at hm
  simp only [Except.ok.injEq] at hm
  intro p hp
  rw [← hm] at hp
  simp only at hp
  obtain ⟨x, hx, rfl⟩ := List.mem_map.1 hp
  simp only
  rw [hA.present]
  exact hA.value x hx

/-- the same cell, half of its lithium lost: no voltage above a state of charge of 50 -/
theorem flat_half {A B R : Curve} {r : Rat} (hA : IsFlat A 3) (hB : IsFlat B 0) (hR : IsFlat R r) :
    ∃ m, matchV3 A B [] [] 50 0 0 1 R = .ok m ∧
    (∀ p ∈ m.emulated, p.2 = some 3 ∨ p.2 = none) ∧ 500 ≤ blanks m.emulated := by
  have hov := hA.row hB
  obtain ⟨r, hi⟩ := C107_accepts_v1 A B 50 0 0 1 hA.length hB.length (by rw [hA.axis, hB.axis]) hov
  obtain ⟨P, N⟩ := r
  have hi0 := hi
  have hb : blend B [] [] 1 = .ok B := rfl
  unfold imposeDegradation at hi
  rw [hb] at hi
  simp only at hi
  cases hu : upperSetpoint A B with
  | error e => rw [hu] at hi; cases hi
  | ok u => cases hl : lowerSetpoint A B with
    | error e => rw [hu, hl] at hi; cases hi
    | ok l =>
      rw [hu, hl] at hi
      simp only at hi
      have e1 : affine (1 - 0 / 100) (0 * u / 100) A = A := affine_id _ _ (by norm_num) (by ring) _
      have e2 : affine (1 - 0 / 100) (50 + 0 * l / 100) B = affine 1 50 B := by
        rw [show (1 : Rat) - 0 / 100 = 1 by norm_num, show (50 : Rat) + 0 * l / 100 = 50 by ring]
      rw [e1, e2] at hi
      obtain ⟨_, _, a, b, hex, hev, hax, hP, hN⟩ := realign_ok hi hA.distinct (affine_distinct one_pos hB.distinct)
      have ha : a = 0 := by
        have h1 := (hex.2.2 _ (List.mem_append_left _ (List.mem_of_getElem? (hA.get 0 (by norm_num))))).1
        obtain ⟨⟨q, hq, rfl⟩, _⟩ := hex
        rcases List.mem_append.1 hq with hq | hq
        · have := (hA.mem _ hq).2.1
          simp only [Nat.cast_zero, zero_div] at h1
          exact le_antisymm h1 this
        · obtain ⟨q0, hq0, rfl⟩ := List.mem_map.1 hq
          have := (hB.mem _ hq0).2.1
          simp only [Nat.cast_zero, zero_div] at h1
          linarith
      have hbv : b = 150 := by
        have h1 := (hex.2.2 _ (List.mem_append_right _ (List.mem_map.2
          ⟨_, List.mem_of_getElem? (hB.get 1000 (by norm_num)), rfl⟩))).2
        obtain ⟨_, ⟨q, hq, rfl⟩, _⟩ := hex
        norm_num at h1
        rcases List.mem_append.1 hq with hq | hq
        · have := (hA.mem _ hq).2.2
          linarith
        · obtain ⟨q0, hq0, rfl⟩ := List.mem_map.1 hq
          have := (hB.mem _ hq0).2.2
          simp only at h1 ⊢
          linarith
      subst ha
      subst hbv
      have vP : ∀ x w, (x, w) ∈ P → (w = some 3 ∧ x ≤ 100) ∨ w = none := by
        intro x w hm
        rcases onCurve_const (fun p hp => (hA.mem p hp).1) (hP x w hm) with ⟨h1, _, q, hq, h2⟩ | h
        · exact Or.inl ⟨h1, le_trans h2 (hA.mem _ hq).2.2⟩
        · exact Or.inr h
      have vN : ∀ x w, (x, w) ∈ N → (w = some 0 ∧ 50 ≤ x) ∨ w = none := by
        intro x w hm
        have hc : ∀ p ∈ affine 1 50 B, p.2 = some 0 := by
          intro p hp
          obtain ⟨q, hq, rfl⟩ := List.mem_map.1 hp
          exact (hB.mem _ hq).1
        rcases onCurve_const hc (hN x w hm) with ⟨h1, ⟨q, hq, h2⟩, _⟩ | h
        · obtain ⟨q0, hq0, rfl⟩ := List.mem_map.1 hq
          have := (hB.mem _ hq0).2.1
          simp only at h2
          exact Or.inl ⟨h1, by linarith⟩
        · exact Or.inr h
      have rows : ∀ x w, (x, w) ∈ present (fullCell P N) → w = some 3 ∧ 50 ≤ x ∧ x ≤ 100 := by
        intro x w hm
        obtain ⟨h1, h2⟩ := present_mem.1 hm
        obtain ⟨k, hk⟩ := List.getElem?_of_mem h1
        obtain ⟨u, v, hu, hv, he⟩ := (fullCell_getElem? P N hax k x w).1 hk
        rcases vP x u (List.mem_of_getElem? hu) with ⟨rfl, h3⟩ | rfl
        · rcases vN x v (List.mem_of_getElem? hv) with ⟨rfl, h4⟩ | rfl
          · refine ⟨by rw [he]; simp [subN], h4, h3⟩
          · exact absurd he h2
        · exact absurd (by rw [he]; cases v <;> rfl) h2
      -- a row with a voltage: the one at the place 75
      have getP : ∀ k : Nat, k < 1001 → ∃ v, P[k]? = some ((k : Rat) * 150 / 1000, v) := by
        intro k hk
        have := hev.2 k hk
        rw [List.getElem?_map] at this
        cases hp : P[k]? with
        | none => rw [hp] at this; cases this
        | some p =>
          rw [hp] at this
          simp only [Option.map_some, Option.some.injEq] at this
          refine ⟨p.2, ?_⟩
          have h2 : p.1 = (k : Rat) * 150 / 1000 := by rw [this]; ring
          rw [← h2]
      have getN : ∀ k : Nat, k < 1001 → ∃ v, N[k]? = some ((k : Rat) * 150 / 1000, v) := by
        intro k hk
        obtain ⟨v, hv⟩ := getP k hk
        have : (N.map Prod.fst)[k]? = some ((k : Rat) * 150 / 1000) := by
          rw [← hax, List.getElem?_map, hv]; rfl
        rw [List.getElem?_map] at this
        cases hp : N[k]? with
        | none => rw [hp] at this; cases this
        | some p =>
          rw [hp] at this
          simp only [Option.map_some, Option.some.injEq] at this
          exact ⟨p.2, by rw [← this]⟩
      have hover : ∃ k x a b, RowAt P N k x a b := by
        obtain ⟨v, hv⟩ := getP 500 (by norm_num)
        obtain ⟨w, hw⟩ := getN 500 (by norm_num)
        have e : ((500 : Nat) : Rat) * 150 / 1000 = 75 := by norm_num
        rw [e] at hv hw
        have h1 : v = some 3 := onCurve_unique hA.distinct (List.ne_nil_of_mem (List.mem_of_getElem? (hA.get 0 (by norm_num))))
          (hP _ _ (List.mem_of_getElem? hv)) (Or.inl (by
            have := List.mem_of_getElem? (hA.get 750 (by norm_num))
            norm_num at this
            exact this))
        have h2 : w = some 0 := onCurve_unique (affine_distinct one_pos hB.distinct)
          (List.ne_nil_of_mem (List.mem_map_of_mem (List.mem_of_getElem? (hB.get 0 (by norm_num)))))
          (hN _ _ (List.mem_of_getElem? hw)) (Or.inl (by
            have : (((250 : Nat) : Rat) / 10 * 1 + 50, some (0 : Rat)) ∈ affine 1 50 B :=
              List.mem_map.2 ⟨_, List.mem_of_getElem? (hB.get 250 (by norm_num)), rfl⟩
            norm_num at this
            exact this))
        rw [h1] at hv
        rw [h2] at hw
        exact ⟨500, 75, 3, 0, hv, hw⟩
      obtain ⟨m, hm⟩ := matchV3_total (pos := []) (neg := []) hi0 hax hover hR.some
      refine ⟨m, hm, ?_⟩
      unfold matchV3 at hm
      rw [hi0] at hm
      simp only at hm
      cases hg : range (present (fullCell P N)) with
      | none => rw [hg] at hm; cases hm
      | some r =>
        obtain ⟨lo, hi⟩ := r
        rw [hg] at hm
        simp only at hm
        obtain ⟨⟨q, hq, hql⟩, _, _⟩ := (range_iff ..).1 hg
        have hlo : 50 ≤ lo := by rw [← hql]; exact (rows q.1 q.2 hq).2.1
        have hrows : ∀ p ∈ present (moveBy (- lo) (fullCell P N)), p.2 = some 3 ∧ p.1 ≤ 50 := by
          intro p hp
          obtain ⟨h1, h2⟩ := present_mem.1 hp
          obtain ⟨q, hq, rfl⟩ := List.mem_map.1 h1
          obtain ⟨g1, g2, g3⟩ := rows q.1 q.2 (present_mem.2 ⟨hq, h2⟩)
          exact ⟨g1, by simp only; linarith⟩
        unfold onReal at hm
        rw [hR.present, hR.range] at hm
        simp only [Except.ok.injEq] at hm
        have hem : m.emulated = (linspace 0 100 1001).map
            (fun x => (x, interp (present (moveBy (- lo) (fullCell P N))) x)) := by rw [← hm]
        have hdist : Distinct (present (moveBy (- lo) (fullCell P N))) := by
          apply present_distinct
          apply moveBy_distinct
          have : Distinct P := even_distinct hev (by norm_num)
          unfold Distinct at this ⊢
          rw [axis_fullCell hax]
          exact this
        have hval : ∀ x v, (x, v) ∈ m.emulated → (v = some 3 ∧ x ≤ 50) ∨ v = none := by
          intro x v hxv
          rw [hem] at hxv
          obtain ⟨y, _, he⟩ := List.mem_map.1 hxv
          obtain ⟨rfl, rfl⟩ := Prod.mk.inj he
          rcases onCurve_const (fun p hp => (hrows p hp).1) (interp_onCurve _ hdist y) with ⟨h1, _, q, hq, h2⟩ | h
          · exact Or.inl ⟨h1, le_trans h2 (hrows q hq).2⟩
          · exact Or.inr h
        refine ⟨?_, ?_⟩
        · intro p hp
          rcases hval p.1 p.2 hp with ⟨h, _⟩ | h
          · exact Or.inl h
          · exact Or.inr h
        · apply missing_late
          · rw [hem, List.length_map, length_linspace]
          · intro k p hk hp
            have hlt : k < 1001 := by
              have := (List.getElem?_eq_some_iff.1 hp).1
              rw [hem, List.length_map, length_linspace] at this
              exact this
            have hx : p.1 = (k : Rat) / 10 := by
              rw [hem, List.getElem?_map, (even_linspace 0 100).2 k hlt] at hp
              rw [← Option.some.inj hp]
              simp only
              ring
            rcases hval p.1 p.2 (List.mem_of_getElem? hp) with ⟨_, h⟩ | h
            · exfalso
              rw [hx] at h
              have : (501 : Rat) ≤ (k : Rat) := by exact_mod_cast hk
              linarith
            · exact h

theorem flat_wide : ∃ p ∈ flat (31 / 10), ∃ q ∈ flat (31 / 10), p.2 ≠ none ∧ q.2 ≠ none ∧ p.1 ≠ q.1 :=
  ⟨_, List.mem_of_getElem? (flat_get _ (k := 0) (by norm_num)), _,
    List.mem_of_getElem? (flat_get _ (k := 1) (by norm_num)), by simp, by simp, by norm_num⟩

theorem flat_real {m : Matched} {lli : Rat} (h : matchV3 (flat 3) (flat 0) [] [] lli 0 0 1 (flat (31 / 10)) = .ok m) :
    ∀ p ∈ m.real, p.2 = some (31 / 10) := by
  intro p hp
  obtain ⟨hres, _⟩ := matchV3_real h
  obtain ⟨v, hv, h1, h2⟩ := resampled_full (flat_distinct _) hres (lo := 31 / 10) (hi := 31 / 10) (by
    intro q w hm
    have := Option.some.inj (flat_mem hm).1
    rw [this]
    exact ⟨le_refl _, le_refl _⟩) p hp
  rw [hv, le_antisymm h2 h1]

/-- Losing a part of the profile lowers the error: a cell at 3 V throughout, measured at 3.1 V over its whole range, is
emulated without losses at every measured point.  With half of its lithium lost it has no voltage in 500 of the 1001
rows, and the smaller error. -/
theorem C141_coverage_violated : ∃ mA mB a b, matchV3 (flat 3) (flat 0) [] [] 0 0 0 1 (flat (31 / 10)) = .ok mA ∧
    matchV3 (flat 3) (flat 0) [] [] 50 0 0 1 (flat (31 / 10)) = .ok mB ∧
    blanks mA.emulated = 0 ∧ 500 ≤ blanks mB.emulated ∧
    errorV1 (flat 3) (flat 0) [] [] 0 0 0 1 (flat (31 / 10)) = .ok a ∧
    errorV1 (flat 3) (flat 0) [] [] 50 0 0 1 (flat (31 / 10)) = .ok b ∧ b < a := by
  obtain ⟨mA, hA, vA⟩ := flat_whole (flat_is 3) (flat_is 0) (flat_is (31 / 10))
  obtain ⟨mB, hB, vB, bB⟩ := flat_half (flat_is 3) (flat_is 0) (flat_is (31 / 10))
  have bA : blanks mA.emulated = 0 := by
    unfold blanks
    rw [List.countP_eq_zero]
    intro p hp
    simp [vA p hp]
  obtain ⟨_, _, _, lA, lA'⟩ := matchV3_rows (flat_distinct _) flat_wide hA
  obtain ⟨_, _, _, lB, lB'⟩ := matchV3_rows (flat_distinct _) flat_wide hB
  have sA := flat_sum mA.real mA.emulated (by omega) (flat_real hA) (fun p hp => Or.inl (vA p hp))
  have sB := flat_sum mB.real mB.emulated (by omega) (flat_real hB) vB
  refine ⟨mA, mB, _, _, hA, hB, bA, bB, errorV1_eq (flat_distinct _) flat_wide hA,
    errorV1_eq (flat_distinct _) flat_wide hB, ?_⟩
  rw [bA, lA'] at sA
  rw [lB'] at sB
  norm_num at sA sB
  rw [sA, bA]
  obtain ⟨n, hn⟩ : ∃ n : Nat, n = blanks mB.emulated := ⟨_, rfl⟩
  rw [← hn] at sB bB ⊢
  have hle : n ≤ 1001 := by
    rw [hn, ← lB']
    unfold blanks
    exact List.countP_le_length
  have tB : (((List.zipWith rowGap mB.real mB.emulated).sum : Rat) : ℝ) = (1001 - (n : ℝ)) / 100 := by
    have : (List.zipWith rowGap mB.real mB.emulated).sum = (1001 - (n : Rat)) / 100 := by linarith
    rw [this]
    push_cast
    ring
  rw [tB]
  have h1 : Real.sqrt ((1001 - (n : ℝ)) / 100) ≤ ((1001 - (n : ℝ)) / 100) / (44 / 10) + 11 / 10 := by
    rw [Real.sqrt_le_left]
    · nlinarith [sq_nonneg (((1001 - (n : ℝ)) / 100) - 484 / 100)]
    · have : (n : ℝ) ≤ 1001 := by exact_mod_cast hle
      have : 0 ≤ (1001 - (n : ℝ)) / 100 / (44 / 10) := by
        apply div_nonneg
        · linarith
        · norm_num
      linarith
  have h2 : (316 / 100 : ℝ) < Real.sqrt (((1001 / 100 : Rat)) : ℝ) := by
    apply Real.lt_sqrt_of_sq_lt
    norm_num
  have h3 : (500 : ℝ) ≤ (n : ℝ) := by exact_mod_cast bB
  simp only [Nat.cast_zero, zero_div, add_zero]
  linarith

example : ∃ m, matchV3 (flat 3) (flat 0) [] [] 50 0 0 1 (flat (31 / 10)) = .ok m ∧
    (∃ total, SquaredGap m.real m.emulated total) ∧ Distinct (flat (31 / 10)) ∧
    ∀ (k : Nat) (x y v w : Rat), m.real[k]? = some (x, some v) → m.emulated[k]? = some (y, some w) → v - w ≤ 3 ∧ w - v ≤ 3 := by
  obtain ⟨m, hm, vm, _⟩ := flat_half (flat_is 3) (flat_is 0) (flat_is (31 / 10))
  obtain ⟨_, _, _, l1, l2⟩ := matchV3_rows (flat_distinct _) flat_wide hm
  refine ⟨m, hm, ⟨_, squaredGap_zip _ _ (by omega)⟩, flat_distinct _, ?_⟩
  intro k x y v w h1 h2
  have e1 := flat_real hm _ (List.mem_of_getElem? h1)
  have e2 := vm _ (List.mem_of_getElem? h2)
  simp only [reduceCtorEq, or_false, Option.some.injEq] at e1 e2
  rw [e1, e2]
  norm_num

/-- electrodes that a lithium loss of 150 % moves apart -/
theorem flat_apart {A B : Curve} (hA : IsFlat A 3) (hB : IsFlat B 0) : ∃ p n, imposeDegradation A B [] [] 150 0 0 1 = .ok (p, n) ∧
    p.map Prod.fst = n.map Prod.fst ∧ ∀ k x a b, ¬ RowAt p n k x a b := by
  obtain ⟨r, hi⟩ := C107_accepts_v1 A B 150 0 0 1 hA.length hB.length (by rw [hA.axis, hB.axis]) (hA.row hB)
  obtain ⟨P, N⟩ := r
  have hi0 := hi
  have hb : blend B [] [] 1 = .ok B := rfl
  unfold imposeDegradation at hi
  rw [hb] at hi
  simp only at hi
  cases hu : upperSetpoint A B with
  | error e => rw [hu] at hi; cases hi
  | ok u => cases hl : lowerSetpoint A B with
    | error e => rw [hu, hl] at hi; cases hi
    | ok l =>
      rw [hu, hl] at hi
      simp only at hi
      have e1 : affine (1 - 0 / 100) (0 * u / 100) A = A := affine_id _ _ (by norm_num) (by ring) _
      have e2 : affine (1 - 0 / 100) (150 + 0 * l / 100) B = affine 1 150 B := by
        rw [show (1 : Rat) - 0 / 100 = 1 by norm_num, show (150 : Rat) + 0 * l / 100 = 150 by ring]
      rw [e1, e2] at hi
      obtain ⟨_, _, a, b, hex, hev, hax, hP, hN⟩ := realign_ok hi hA.distinct (affine_distinct one_pos hB.distinct)
      refine ⟨P, N, hi0, hax, ?_⟩
      rintro k x v w ⟨h1, h2⟩
      have hc : ∀ p ∈ affine 1 150 B, p.2 = some 0 := by
        intro p hp
        obtain ⟨q, hq, rfl⟩ := List.mem_map.1 hp
        exact (hB.mem q hq).1
      rcases onCurve_const (fun p hp => (hA.mem p hp).1) (hP x _ (List.mem_of_getElem? h1)) with ⟨_, _, q, hq, g1⟩ | h
      · rcases onCurve_const hc (hN x _ (List.mem_of_getElem? h2)) with ⟨_, ⟨q', hq', g2⟩, _⟩ | h
        · obtain ⟨q0, hq0, rfl⟩ := List.mem_map.1 hq'
          have k1 := (hA.mem q hq).2.2
          have k2 := (hB.mem q0 hq0).2.1
          simp only at g2
          linarith
        · cases h
      · cases h

example : ∃ p n, imposeDegradation (flat 3) (flat 0) [] [] 150 0 0 1 = .ok (p, n) ∧ p.map Prod.fst = n.map Prod.fst ∧
    ∀ k x a b, ¬ RowAt p n k x a b := flat_apart (flat_is 3) (flat_is 0)

/-- electrodes without a common voltage -/
example : ¬ ∃ k x a b, RowAt [(0, some 3), (100, none)] [(0, none), (100, some 1)] k x a b := by
  rintro ⟨k, x, a, b, h1, h2⟩
  match k with
  | 0 => cases h2
  | 1 => cases h1
  | k + 2 => cases h1

end Beep.Props.IntracellV1
