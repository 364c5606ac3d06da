import Verif.Proof.IntracellFit
/-
Helper lemmas for Props/IntracellFit: variances and nearest distances.
-/
namespace Beep.IntracellFit
open Beep Beep.Spec.IntracellFit

theorem sq_sum_nonneg (m : Rat) (l : List Rat) : 0 ≤ (l.map (fun x => (x - m) ^ 2)).sum := by
  induction l with
  | nil => simp
  | cons a l ih => simp only [List.map_cons, List.sum_cons]; have := sq_nonneg (a - m); linarith

theorem sq_le_sum {m x : Rat} {l : List Rat} (h : x ∈ l) : (x - m) ^ 2 ≤ (l.map (fun x => (x - m) ^ 2)).sum := by
  induction l with
  | nil => cases h
  | cons a l ih =>
    simp only [List.map_cons, List.sum_cons]
    rcases List.mem_cons.1 h with rfl | h
    · have := sq_sum_nonneg m l; linarith
    · have := ih h; have := sq_nonneg (a - m); linarith

theorem length_pos {l : List Rat} (h : 2 ≤ l.length) : (0 : Rat) < (l.length : Rat) - 1 := by
  have : (2 : Rat) ≤ (l.length : Rat) := by exact_mod_cast h
  linarith

theorem variance_nonneg {l : List Rat} (h : 2 ≤ l.length) : 0 ≤ variance l :=
  div_nonneg (sq_sum_nonneg _ _) (length_pos h).le

theorem variance_sample {l : List Rat} (h : 2 ≤ l.length) : SampleVariance l (variance l) := by
  have hp := length_pos h
  refine ⟨mean l, ?_, ?_⟩
  · unfold mean
    have : (l.length : Rat) ≠ 0 := by linarith
    field_simp
  · have e : (fun x => (x - mean l) * (x - mean l)) = fun x => (x - mean l) ^ 2 := by funext x; ring
    rw [e]
    unfold variance
    field_simp

theorem sample_unique {l : List Rat} (h : 2 ≤ l.length) {v w : Rat} (hv : SampleVariance l v) (hw : SampleVariance l w) :
    v = w := by
  have hp := length_pos h
  obtain ⟨m, hm, hv⟩ := hv
  obtain ⟨m', hm', hw⟩ := hw
  have hl : (l.length : Rat) ≠ 0 := by linarith
  have : m = m' := mul_right_cancel₀ hl (by rw [hm, hm'])
  subst this
  exact mul_right_cancel₀ hp.ne' (by rw [hv, hw])

/-- two of the values differ by at most the variance allows -/
theorem variance_bound {a b : List Rat} {x y : Rat} (hx : x ∈ a) (hy : y ∈ b) :
    (x - y) ^ 2 ≤ 2 * (((a ++ b).length : Rat) - 1) * variance (a ++ b) := by
  have hl : 2 ≤ (a ++ b).length := by
    rw [List.length_append]
    have := List.length_pos_of_mem hx
    have := List.length_pos_of_mem hy
    omega
  have hp := length_pos hl
  have e : 2 * (((a ++ b).length : Rat) - 1) * variance (a ++ b) =
      2 * ((a ++ b).map (fun x => (x - mean (a ++ b)) ^ 2)).sum := by
    unfold variance; field_simp
  rw [e]
  generalize mean (a ++ b) = m
  rw [List.map_append, List.sum_append]
  have h1 := sq_le_sum (m := m) hx
  have h2 := sq_le_sum (m := m) hy
  nlinarith [sq_nonneg ((x - m) + (y - m))]

theorem variance_pos {l : List Rat} (h : ∃ x ∈ l, ∃ y ∈ l, x ≠ y) : 0 < variance l := by
  obtain ⟨x, hx, y, hy, hxy⟩ := h
  have hl : 2 ≤ l.length := by
    match l, hx, hy with
    | [], hx, _ => cases hx
    | [a], hx, hy => simp only [List.mem_singleton] at hx hy; exact absurd (hx.trans hy.symm) hxy
    | _ :: _ :: _, _, _ => simp
  rcases lt_or_eq_of_le (variance_nonneg hl) with h | h
  · exact h
  · exfalso
    have hp := length_pos hl
    have hs : (l.map (fun x => (x - mean l) ^ 2)).sum = 0 := by
      unfold variance at h
      have := (div_eq_zero_iff.1 h.symm).resolve_right hp.ne'
      exact this
    have h1 := sq_le_sum (m := mean l) hx
    have h2 := sq_le_sum (m := mean l) hy
    rw [hs] at h1 h2
    have z1 : x - mean l = 0 := by
      have := sq_nonneg (x - mean l)
      exact pow_eq_zero_iff (two_ne_zero) |>.1 (le_antisymm h1 this)
    have z2 : y - mean l = 0 := by
      have := sq_nonneg (y - mean l)
      exact pow_eq_zero_iff (two_ne_zero) |>.1 (le_antisymm h2 this)
    exact hxy (by linarith)

theorem sum_const (c : Rat) (l : List Rat) (h : ∀ x ∈ l, x = c) : l.sum = (l.length : Rat) * c := by
  induction l with
  | nil => simp
  | cons a l ih =>
    rw [List.sum_cons, ih (fun x hx => h x (List.mem_cons_of_mem _ hx)), h a (by simp)]
    simp only [List.length_cons]; push_cast; ring

theorem variance_zero {l : List Rat} (hl : 2 ≤ l.length) (h : ¬ ∃ x ∈ l, ∃ y ∈ l, x ≠ y) : variance l = 0 := by
  obtain ⟨c, hc⟩ : ∃ c, c ∈ l := List.exists_mem_of_ne_nil l (by rintro rfl; simp at hl)
  have hall : ∀ x ∈ l, x = c := by
    intro x hx
    by_contra hne
    exact h ⟨x, hx, c, hc, hne⟩
  have hlen : (l.length : Rat) ≠ 0 := by have := length_pos hl; linarith
  have hm : mean l = c := by
    unfold mean
    rw [sum_const c l hall]; field_simp
  unfold variance
  have : (l.map (fun x => (x - mean l) ^ 2)).sum = 0 := by
    rw [hm]
    have hz : ∀ x ∈ l.map (fun x => (x - c) ^ 2), x = 0 := by
      intro x hx
      obtain ⟨y, hy, rfl⟩ := List.mem_map.1 hx
      rw [hall y hy]; ring
    rw [sum_const 0 _ hz]; ring
  rw [this]; simp

/-! ### least distance -/

theorem least_mem {ds : List ℝ} (h : ds ≠ []) : least ds ∈ ds := by
  induction ds with
  | nil => exact absurd rfl h
  | cons d ds ih =>
    cases ds with
    | nil => simp [least]
    | cons e es =>
      have := ih (by simp)
      show min d (least (e :: es)) ∈ _
      rcases min_choice d (least (e :: es)) with h | h
      · rw [h]; simp
      · rw [h]; exact List.mem_cons_of_mem _ this

theorem least_le {ds : List ℝ} {d : ℝ} (h : d ∈ ds) : least ds ≤ d := by
  induction ds with
  | nil => cases h
  | cons a ds ih =>
    cases ds with
    | nil => simp only [List.mem_singleton] at h; rw [h]; simp [least]
    | cons e es =>
      show min a (least (e :: es)) ≤ d
      rcases List.mem_cons.1 h with rfl | h
      · exact min_le_left _ _
      · exact le_trans (min_le_right _ _) (ih h)

theorem seuclidean_nonneg (v w : Rat) (p q : Rat × Rat) : 0 ≤ seuclidean v w p q := Real.sqrt_nonneg _

theorem arg_nonneg {v w : Rat} (hv : 0 < v) (hw : 0 < w) (p q : Rat × Rat) :
    0 ≤ (p.1 - q.1) ^ 2 / v + (p.2 - q.2) ^ 2 / w := by positivity

theorem seuclidean_sq {v w : Rat} (hv : 0 < v) (hw : 0 < w) (p q : Rat × Rat) :
    seuclidean v w p q * seuclidean v w p q = (((p.1 - q.1) * (p.1 - q.1) / v + (p.2 - q.2) * (p.2 - q.2) / w : Rat) : ℝ) := by
  unfold seuclidean
  rw [Real.mul_self_sqrt (by exact_mod_cast arg_nonneg hv hw p q)]
  congr 1; ring

theorem seuclidean_zero {v w : Rat} (hv : 0 < v) (hw : 0 < w) (p q : Rat × Rat) : seuclidean v w p q = 0 ↔ p = q := by
  unfold seuclidean
  rw [Real.sqrt_eq_zero (by exact_mod_cast arg_nonneg hv hw p q)]
  constructor
  · intro h
    have h : (p.1 - q.1) ^ 2 / v + (p.2 - q.2) ^ 2 / w = 0 := by exact_mod_cast h
    have h1 : 0 ≤ (p.1 - q.1) ^ 2 / v := by positivity
    have h2 : 0 ≤ (p.2 - q.2) ^ 2 / w := by positivity
    have e1 : (p.1 - q.1) ^ 2 / v = 0 := by linarith
    have e2 : (p.2 - q.2) ^ 2 / w = 0 := by linarith
    have e1 := (div_eq_zero_iff.1 e1).resolve_right hv.ne'
    have e2 := (div_eq_zero_iff.1 e2).resolve_right hw.ne'
    have e1 := pow_eq_zero_iff (two_ne_zero) |>.1 e1
    have e2 := pow_eq_zero_iff (two_ne_zero) |>.1 e2
    exact Prod.ext (by linarith) (by linarith)
  · rintro rfl
    simp

theorem sum_nonneg {l : List ℝ} (h : ∀ x ∈ l, 0 ≤ x) : 0 ≤ l.sum := by
  induction l with
  | nil => simp
  | cons a l ih =>
    rw [List.sum_cons]
    have := h a (by simp)
    have := ih (fun x hx => h x (List.mem_cons_of_mem _ hx))
    linarith

theorem sum_le {l : List ℝ} {B : ℝ} (h : ∀ x ∈ l, x ≤ B) : l.sum ≤ (l.length : ℝ) * B := by
  induction l with
  | nil => simp
  | cons a l ih =>
    rw [List.sum_cons]
    have := h a (by simp)
    have := ih (fun x hx => h x (List.mem_cons_of_mem _ hx))
    simp only [List.length_cons]; push_cast; linarith

theorem sum_zero {l : List ℝ} (h : ∀ x ∈ l, 0 ≤ x) : l.sum = 0 ↔ ∀ x ∈ l, x = 0 := by
  induction l with
  | nil => simp
  | cons a l ih =>
    have h0 := h a (by simp)
    have hl : ∀ x ∈ l, 0 ≤ x := fun x hx => h x (List.mem_cons_of_mem _ hx)
    have := sum_nonneg hl
    rw [List.sum_cons]
    constructor
    · intro hs x hx
      have e : a = 0 := by linarith
      rcases List.mem_cons.1 hx with rfl | hx
      · exact e
      · exact (ih hl).1 (by linarith) x hx
    · intro hz
      rw [hz a (by simp), (ih hl).2 (fun x hx => hz x (List.mem_cons_of_mem _ hx))]; ring

/-- the variances that `meanNearest` uses -/
def vars (xa xb : List (Rat × Rat)) : Rat × Rat := (variance ((xa ++ xb).map Prod.fst), variance ((xa ++ xb).map Prod.snd))

theorem meanNearest_some {xa xb : List (Rat × Rat)} {e : ℝ} (h : meanNearest xa xb = .ok (some e)) :
    xa ≠ [] ∧ xb ≠ [] ∧ 0 < (vars xa xb).1 ∧ 0 < (vars xa xb).2 ∧
      e = (xa.map (fun p => least (xb.map (seuclidean (vars xa xb).1 (vars xa xb).2 p)))).sum / (xa.length : ℝ) := by
  unfold meanNearest at h
  cases xa with
  | nil => cases h
  | cons a as =>
    cases xb with
    | nil => cases h
    | cons b bs =>
      simp only [List.isEmpty_cons, Bool.false_eq_true, if_false] at h
      split at h
      · cases h
      · rename_i hn
        simp only [Except.ok.injEq, Option.some.injEq] at h
        rw [not_or] at hn
        have hl : ∀ f : Rat × Rat → Rat, 2 ≤ ((a :: as ++ b :: bs).map f).length := by
          intro f; simp only [List.length_map, List.length_append, List.length_cons]; omega
        refine ⟨by simp, by simp, ?_, ?_, h.symm⟩
        · exact lt_of_le_of_ne (variance_nonneg (hl _)) (Ne.symm hn.1)
        · exact lt_of_le_of_ne (variance_nonneg (hl _)) (Ne.symm hn.2)

theorem meanNearest_spread {xa xb : List (Rat × Rat)} (ha : xa ≠ []) (hb : xb ≠ []) (hs : Spread (xa ++ xb)) :
    ∃ e, meanNearest xa xb = .ok (some e) := by
  have hv : 0 < variance ((xa ++ xb).map Prod.fst) := by
    obtain ⟨⟨p, hp, q, hq, hpq⟩, _⟩ := hs
    exact variance_pos ⟨_, List.mem_map_of_mem hp, _, List.mem_map_of_mem hq, hpq⟩
  have hw : 0 < variance ((xa ++ xb).map Prod.snd) := by
    obtain ⟨_, p, hp, q, hq, hpq⟩ := hs
    exact variance_pos ⟨_, List.mem_map_of_mem hp, _, List.mem_map_of_mem hq, hpq⟩
  cases xa with
  | nil => exact absurd rfl ha
  | cons a as =>
    cases xb with
    | nil => exact absurd rfl hb
    | cons b bs =>
      unfold meanNearest
      simp only [List.isEmpty_cons, Bool.false_eq_true, if_false]
      rw [if_neg (by rw [not_or]; exact ⟨hv.ne', hw.ne'⟩)]
      exact ⟨_, rfl⟩

theorem meanNearest_none {xa xb : List (Rat × Rat)} (ha : xa ≠ []) (hb : xb ≠ []) (hs : ¬ Spread (xa ++ xb)) :
    meanNearest xa xb = .ok none := by
  have hl : ∀ f : Rat × Rat → Rat, 2 ≤ ((xa ++ xb).map f).length := by
    intro f
    have h1 := List.length_pos_of_ne_nil ha
    have h2 := List.length_pos_of_ne_nil hb
    simp only [List.length_map, List.length_append]; omega
  have hz : variance ((xa ++ xb).map Prod.fst) = 0 ∨ variance ((xa ++ xb).map Prod.snd) = 0 := by
    by_contra hn
    rw [not_or] at hn
    apply hs
    constructor
    · by_contra hne
      apply hn.1
      apply variance_zero (hl _)
      rintro ⟨x, hx, y, hy, hxy⟩
      obtain ⟨p, hp, rfl⟩ := List.mem_map.1 hx
      obtain ⟨q, hq, rfl⟩ := List.mem_map.1 hy
      exact hne ⟨p, hp, q, hq, hxy⟩
    · by_contra hne
      apply hn.2
      apply variance_zero (hl _)
      rintro ⟨x, hx, y, hy, hxy⟩
      obtain ⟨p, hp, rfl⟩ := List.mem_map.1 hx
      obtain ⟨q, hq, rfl⟩ := List.mem_map.1 hy
      exact hne ⟨p, hp, q, hq, hxy⟩
  cases xa with
  | nil => exact absurd rfl ha
  | cons a as =>
    cases xb with
    | nil => exact absurd rfl hb
    | cons b bs =>
      unfold meanNearest
      simp only [List.isEmpty_cons, Bool.false_eq_true, if_false]
      rw [if_pos hz]

/-- the error is the mean of the nearest distances -/
theorem meanNearest_spec {xa xb : List (Rat × Rat)} {e : ℝ} (h : meanNearest xa xb = .ok (some e)) : MeanNearest xa xb e := by
  obtain ⟨ha, hb, hv, hw, rfl⟩ := meanNearest_some h
  have hl : ∀ f : Rat × Rat → Rat, 2 ≤ ((xa ++ xb).map f).length := by
    intro f
    have h1 := List.length_pos_of_ne_nil ha
    have h2 := List.length_pos_of_ne_nil hb
    simp only [List.length_map, List.length_append]; omega
  have dist : ∀ p q, Distance (xa ++ xb) p q (seuclidean (vars xa xb).1 (vars xa xb).2 p q) := fun p q =>
    ⟨seuclidean_nonneg _ _ p q, _, _, variance_sample (hl _), variance_sample (hl _), hv, hw, seuclidean_sq hv hw p q⟩
  have uniq : ∀ p q d, Distance (xa ++ xb) p q d → d = seuclidean (vars xa xb).1 (vars xa xb).2 p q := by
    rintro p q d ⟨hd, v, w, h1, h2, _, _, hsq⟩
    have e1 : v = (vars xa xb).1 := sample_unique (hl _) h1 (variance_sample (hl _))
    have e2 : w = (vars xa xb).2 := sample_unique (hl _) h2 (variance_sample (hl _))
    rw [e1, e2, ← seuclidean_sq hv hw] at hsq
    exact (mul_self_inj hd (seuclidean_nonneg _ _ _ _)).1 hsq
  refine ⟨xa.map (fun p => least (xb.map (seuclidean (vars xa xb).1 (vars xa xb).2 p))), by simp, ?_, ?_⟩
  · intro k p hk
    refine ⟨least (xb.map (seuclidean (vars xa xb).1 (vars xa xb).2 p)), by rw [List.getElem?_map, hk]; rfl, ?_, ?_⟩
    · have hm := least_mem (ds := xb.map (seuclidean (vars xa xb).1 (vars xa xb).2 p)) (by simpa using hb)
      obtain ⟨q, hq, he⟩ := List.mem_map.1 hm
      refine ⟨q, hq, ?_⟩
      rw [← he]
      exact dist p q
    · intro q hq d' hd'
      rw [uniq p q d' hd']
      exact least_le (List.mem_map_of_mem hq)
  · have : (xa.length : ℝ) ≠ 0 := by
      have := List.length_pos_of_ne_nil ha
      exact_mod_cast this.ne'
    field_simp

/-- bounds of the error -/
theorem meanNearest_bound {xa xb : List (Rat × Rat)} {e : ℝ} (h : meanNearest xa xb = .ok (some e)) {n : Nat}
    (hn : xa.length + xb.length ≤ n + 1) : 0 ≤ e ∧ e ≤ Real.sqrt (4 * n) := by
  obtain ⟨ha, hb, hv, hw, rfl⟩ := meanNearest_some h
  have hlen : (0 : ℝ) < xa.length := by exact_mod_cast List.length_pos_of_ne_nil ha
  constructor
  · apply div_nonneg _ hlen.le
    apply sum_nonneg
    intro x hx
    obtain ⟨p, _, rfl⟩ := List.mem_map.1 hx
    have hm := least_mem (ds := xb.map (seuclidean (vars xa xb).1 (vars xa xb).2 p)) (by simpa using hb)
    obtain ⟨q, hq, he⟩ := List.mem_map.1 hm
    rw [← he]
    exact seuclidean_nonneg _ _ _ _
  · rw [div_le_iff₀ hlen, mul_comm]
    have := sum_le (l := xa.map (fun p => least (xb.map (seuclidean (vars xa xb).1 (vars xa xb).2 p))))
      (B := Real.sqrt (4 * n)) ?_
    · rwa [List.length_map] at this
    intro x hx
    obtain ⟨p, hp, rfl⟩ := List.mem_map.1 hx
    obtain ⟨q, hq⟩ := List.exists_mem_of_ne_nil xb hb
    refine le_trans (least_le (List.mem_map_of_mem hq)) ?_
    unfold seuclidean
    apply Real.sqrt_le_sqrt
    have b1 := variance_bound (List.mem_map_of_mem (f := Prod.fst) hp) (List.mem_map_of_mem (f := Prod.fst) hq)
    have b2 := variance_bound (List.mem_map_of_mem (f := Prod.snd) hp) (List.mem_map_of_mem (f := Prod.snd) hq)
    rw [← List.map_append, List.length_map] at b1 b2
    have hN : (((xa ++ xb).length : Rat)) - 1 ≤ n := by
      rw [List.length_append]
      have : ((xa.length + xb.length : Nat) : Rat) ≤ ((n + 1 : Nat) : Rat) := by exact_mod_cast hn
      push_cast at this ⊢
      linarith
    have c1 : (p.1 - q.1) ^ 2 / (vars xa xb).1 ≤ 2 * n := by
      rw [div_le_iff₀ hv]
      refine le_trans b1 ?_
      apply mul_le_mul_of_nonneg_right _ hv.le
      linarith
    have c2 : (p.2 - q.2) ^ 2 / (vars xa xb).2 ≤ 2 * n := by
      rw [div_le_iff₀ hw]
      refine le_trans b2 ?_
      apply mul_le_mul_of_nonneg_right _ hw.le
      linarith
    have : (p.1 - q.1) ^ 2 / (vars xa xb).1 + (p.2 - q.2) ^ 2 / (vars xa xb).2 ≤ ((4 * n : Nat) : Rat) := by
      push_cast; linarith
    have : ((((p.1 - q.1) ^ 2 / (vars xa xb).1 + (p.2 - q.2) ^ 2 / (vars xa xb).2 : Rat)) : ℝ) ≤ (((4 * n : Nat) : Rat) : ℝ) := by
      exact_mod_cast this
    refine le_trans this ?_
    push_cast
    exact le_refl _

/-- the error is 0 exactly if each point of the first list is one of the second -/
theorem meanNearest_zero {xa xb : List (Rat × Rat)} {e : ℝ} (h : meanNearest xa xb = .ok (some e)) :
    e = 0 ↔ ∀ p ∈ xa, p ∈ xb := by
  obtain ⟨ha, hb, hv, hw, rfl⟩ := meanNearest_some h
  have hlen : (xa.length : ℝ) ≠ 0 := by
    have := List.length_pos_of_ne_nil ha
    exact_mod_cast this.ne'
  have nn : ∀ p, 0 ≤ least (xb.map (seuclidean (vars xa xb).1 (vars xa xb).2 p)) := by
    intro p
    have hm := least_mem (ds := xb.map (seuclidean (vars xa xb).1 (vars xa xb).2 p)) (by simpa using hb)
    obtain ⟨q, hq, he⟩ := List.mem_map.1 hm
    rw [← he]
    exact seuclidean_nonneg _ _ _ _
  rw [div_eq_zero_iff, or_iff_left hlen, sum_zero (by
    intro x hx
    obtain ⟨p, _, rfl⟩ := List.mem_map.1 hx
    exact nn p)]
  constructor
  · intro hall p hp
    have hz := hall _ (List.mem_map_of_mem hp)
    have hm := least_mem (ds := xb.map (seuclidean (vars xa xb).1 (vars xa xb).2 p)) (by simpa using hb)
    obtain ⟨q, hq, he⟩ := List.mem_map.1 hm
    rw [hz] at he
    rw [(seuclidean_zero hv hw p q).1 he]
    exact hq
  · intro hall x hx
    obtain ⟨p, hp, rfl⟩ := List.mem_map.1 hx
    refine le_antisymm ?_ (nn p)
    have := least_le (List.mem_map_of_mem (f := seuclidean (vars xa xb).1 (vars xa xb).2 p) (hall p hp))
    rwa [(seuclidean_zero hv hw p p).2 rfl] at this

theorem meanNearest_self (xa : List (Rat × Rat)) : meanNearest xa xa = .ok none ∨ meanNearest xa xa = .ok (some 0) := by
  cases hx : xa with
  | nil => left; rfl
  | cons a as =>
    rw [← hx]
    have hne : xa ≠ [] := by rw [hx]; simp
    by_cases hs : Spread (xa ++ xa)
    · obtain ⟨e, he⟩ := meanNearest_spread hne hne hs
      right
      rw [he, (meanNearest_zero he).2 (fun _ hp => hp)]
    · left; exact meanNearest_none hne hne hs

end Beep.IntracellFit
