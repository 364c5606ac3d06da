import Verif.Proof.Pca
/-
C127 the table of discharges, C128 components needed and reconstruction outliers, C129 outliers by
decomposition.
-/
namespace Beep.Props.Pca
open Beep Pandas Text Beep.Pca Spec.Pca Proof.Pca

/-! ### C127 -/

/-- C127: the table has one row for each file and each wanted cycle with a discharge, in the order of
the files and of the cycles; its columns are the recorded values of the pivot column, each once; and
the entry of a row under a column is the quantity that file recorded there in that discharge, missing
when it recorded none -/
theorem C127_table {files : List (List Point)} {cycles : List Int} {t : Frame}
    (h : pivotData files cycles = .ok t) :
    t.columns.Nodup ∧
    (∀ v, v ∈ t.columns ↔ ∃ f ∈ files, ∃ p ∈ f, Wanted cycles p ∧ p.pos = v) ∧
    ∃ labels : List (Nat × Int),
      labels.Pairwise (fun a b => a.1 < b.1 ∨ (a.1 = b.1 ∧ a.2 < b.2)) ∧
      (∀ i c, (i, c) ∈ labels ↔ ∃ f, files[i]? = some f ∧ ∃ p ∈ f, Wanted cycles p ∧ p.cycle = c) ∧
      labels.length = t.rows.length ∧
      ∀ (k i : Nat) (c : Int) (r : List (Option Rat)), labels[k]? = some (i, c) → t.rows[k]? = some r →
        r.length = t.columns.length ∧ ∃ f, files[i]? = some f ∧
        ∀ (j : Nat) (v : Rat) (x : Option Rat), t.columns[j]? = some v → r[j]? = some x →
          ∀ q, x = some q ↔ ∃ p ∈ f, Wanted cycles p ∧ p.cycle = c ∧ p.pos = v ∧ p.qty = some q := by
  have h0 : Inv cycles [] ⟨[], []⟩ [] := by
    refine ⟨by simp, by simp, by simp, by simp, by simp⟩
  obtain ⟨labels, hi⟩ := inv_from h0 h
  simp only [List.nil_append] at hi
  refine ⟨hi.nodup, hi.cols, labels, hi.order, hi.mem, hi.rows.length_eq, ?_⟩
  intro k i c r hl hr
  obtain ⟨h1, e1⟩ := List.getElem?_eq_some_iff.mp hl
  obtain ⟨h2, e2⟩ := List.getElem?_eq_some_iff.mp hr
  have := (List.forall₂_iff_get.mp hi.rows).2 k h1 h2
  simp only [List.get_eq_getElem, e1, e2] at this
  obtain ⟨hlen, f, hf, hq⟩ := this
  refine ⟨hlen, f, hf, ?_⟩
  intro j v x hv hx q
  rw [← hq v q, entry_get hi.nodup hv hx]

/-- C127: the table is refused exactly when a file records the same value of the pivot column twice
in a wanted discharge -/
theorem C127_refused (files : List (List Point)) (cycles : List Int) (e : Err) :
    pivotData files cycles = .error e ↔
      e = .valueError ∧ ∃ f ∈ files, ∃ (i j : Nat) (p p' : Point), i < j ∧ f[i]? = some p ∧ f[j]? = some p' ∧
        Wanted cycles p ∧ Wanted cycles p' ∧ p.cycle = p'.cycle ∧ p.pos = p'.pos := by
  unfold pivotData
  rw [pivotFrom_error]
  simp only [selected_dup]

/-- two files on grids that differ: both keep their rows, with gaps -/
example : pivotData
    [[⟨"discharge".toList, 10, 3, some 1⟩, ⟨"discharge".toList, 10, 2, some 2⟩, ⟨"charge".toList, 10, 3, some 7⟩,
      ⟨"discharge".toList, 11, 3, some 9⟩],
     [⟨"discharge".toList, 20, 3, some 4⟩, ⟨"discharge".toList, 10, 3, some 5⟩, ⟨"discharge".toList, 10, 4, some 6⟩]]
    [10, 20] =
    .ok ⟨[2, 3, 4], [[some 2, some 1, none], [none, some 5, some 6], [none, some 4, none]]⟩ := by decide +kernel

example : pivotData [[⟨"discharge".toList, 10, 3, some 1⟩, ⟨"discharge".toList, 10, 3, some 1⟩]] [10] =
    .error .valueError := by decide +kernel

/-! ### C128 -/

/-- C128: the number of components is the least that explains more than the wanted share of the
variance; when no number does, it is refused -/
theorem C128_components (f : Fitted) (thr : Rat) (h0 : 0 ≤ thr) :
    (∀ n, minComponents f thr = .ok n ↔
      (∃ s, Explains f.ratios n s ∧ thr < s) ∧ ∀ m < n, ∃ s, Explains f.ratios m s ∧ s ≤ thr) ∧
    (∀ e, minComponents f thr = .error e ↔ e = .valueError ∧ ¬ ∃ n s, Explains f.ratios n s ∧ thr < s) := by
  have hz : ∀ s, Explains f.ratios 0 s ↔ s = 0 := by
    intro s
    constructor
    · rintro ⟨xs, _, h2, h3⟩
      have : xs = [] := List.length_eq_zero_iff.mp h2
      rw [h3, this]; rfl
    · rintro rfl; exact ⟨[], by simp, rfl, rfl⟩
  have hok : ∀ n, minComponents f thr = .ok n ↔
      (∃ s, Explains f.ratios n s ∧ thr < s) ∧ ∀ m < n, ∃ s, Explains f.ratios m s ∧ s ≤ thr := by
    intro n
    have h1 : minComponents f thr = .ok n ↔ ∃ i, firstAbove thr (some 0) 0 f.ratios = some i ∧ n = i + 1 := by
      unfold minComponents
      rcases firstAbove thr (some 0) 0 f.ratios with _ | i
      · simp
      · simp [eq_comm]
    rw [h1]
    constructor
    · rintro ⟨i, hi, rfl⟩
      obtain ⟨k, hk, ⟨s, hs, hgt⟩, hall⟩ := firstAbove_iff.mp hi
      have : i = k := by omega
      subst this
      refine ⟨⟨s, hs, by linarith⟩, ?_⟩
      intro m hm
      rcases Nat.eq_zero_or_pos m with rfl | hp
      · exact ⟨0, (hz 0).mpr rfl, h0⟩
      · obtain ⟨s', hs', hle⟩ := hall m (by omega) hp
        exact ⟨s', hs', by linarith⟩
    · rintro ⟨⟨s, hs, hgt⟩, hall⟩
      cases n with
      | zero =>
        have := (hz s).mp hs
        linarith
      | succ n =>
        refine ⟨n, firstAbove_iff.mpr ⟨n, by omega, ⟨s, hs, by linarith⟩, ?_⟩, rfl⟩
        intro m hm _
        obtain ⟨s', hs', hle⟩ := hall m (by omega)
        exact ⟨s', hs', by linarith⟩
  refine ⟨hok, ?_⟩
  intro e
  have hpre : ∀ {n m : Nat} {s : Rat}, m ≤ n → Explains f.ratios n s → ∃ s', Explains f.ratios m s' := by
    rintro n m s hmn ⟨xs, h1, h2, _⟩
    refine ⟨(xs.take m).sum, xs.take m, ?_, by simp; omega, rfl⟩
    rw [List.map_take, ← h1, List.take_take, Nat.min_eq_left hmn]
  constructor
  · intro h
    have he : e = .valueError := by
      unfold minComponents at h
      split at h
      · cases h
      · cases h; rfl
    refine ⟨he, ?_⟩
    rintro ⟨n, s, hs, hgt⟩
    classical
    have hex : ∃ n, ∃ s, Explains f.ratios n s ∧ thr < s := ⟨n, s, hs, hgt⟩
    have hfind := Nat.find_spec hex
    have : minComponents f thr = .ok (Nat.find hex) := by
      rw [hok]
      refine ⟨hfind, ?_⟩
      intro m hm
      obtain ⟨s0, hs0, _⟩ := hfind
      obtain ⟨s', hs'⟩ := hpre (le_of_lt hm) hs0
      refine ⟨s', hs', ?_⟩
      by_contra hc
      exact Nat.find_min hex hm ⟨s', hs', not_le.mp hc⟩
    rw [this] at h; cases h
  · rintro ⟨rfl, hno⟩
    rcases hc : minComponents f thr with e | n
    · unfold minComponents at hc
      split at hc
      · cases hc
      · cases hc; rfl
    · exact absurd ⟨n, ((hok n).mp hc).1⟩ hno

example : (minComponents ⟨id, id, 3, [some (6/10), some (3/10), some (1/10)]⟩ (89/100)).toOption = some 2 ∧
    (minComponents ⟨id, id, 3, [some (6/10), some (3/10), some (1/10)]⟩ (9/10)).toOption = some 3 ∧
    (minComponents ⟨id, id, 2, [some (6/10), some (2/10)]⟩ (9/10)).toOption = none := by decide +kernel

theorem rowError_nonneg (f : Fitted) (x : List Rat) : 0 ≤ rowError f x := by
  unfold rowError
  apply div_nonneg
  · apply sum_nonneg
    intro v hv
    rw [← List.map_uncurry_zip_eq_zipWith] at hv
    obtain ⟨⟨a, b⟩, _, rfl⟩ := List.mem_map.mp hv
    simp only [Function.uncurry_apply_pair]
    unfold absR; split <;> linarith
  · exact Nat.cast_nonneg _

/-- C128: a row is flagged exactly when its reconstruction error is more than `threshold` times every
reconstruction error of the training data (for thresholds that are not negative), and the reported
error is the mean distance to the reconstruction -/
theorem C128_flagged {f : Fitted} {train data : List (List Rat)} {threshold : Rat} {out : List (Rat × Bool)}
    (h : errorOutliers f train data threshold = .ok out) (ht : 0 ≤ threshold) (hne : [] ∉ train) :
    out.length = data.length ∧
    ∀ (i : Nat) (x : List Rat) (err : Rat) (flag : Bool), data[i]? = some x → out[i]? = some (err, flag) →
      (x ≠ [] → MeanDistance (f.rebuild (f.embed x)) x err) ∧
      (flag = true ↔ ∀ y ∈ train, ∀ e, MeanDistance (f.rebuild (f.embed y)) y e → e * threshold < err) := by
  have hdist : ∀ x : List Rat, x ≠ [] → MeanDistance (f.rebuild (f.embed x)) x (rowError f x) := by
    intro x hne
    have : (x.length : Rat) ≠ 0 := by
      have := List.length_pos_of_ne_nil hne
      positivity
    unfold rowError MeanDistance
    rw [div_mul_cancel₀ _ this]
    have e : (fun a b : Rat => absR (a - b)) = fun a b => if a ≤ b then b - a else a - b := by
      funext a b
      unfold absR
      split <;> split <;> linarith
    rw [e]
  have huniq : ∀ (x : List Rat) (e : Rat), x ≠ [] → MeanDistance (f.rebuild (f.embed x)) x e → e = rowError f x := by
    intro x e hne he
    have : (x.length : Rat) ≠ 0 := by
      have := List.length_pos_of_ne_nil hne
      positivity
    have h2 := hdist x hne
    unfold MeanDistance at he h2
    exact mul_right_cancel₀ this (he.trans h2.symm)
  unfold errorOutliers at h
  split at h
  · cases h
  rename_i m hm
  cases h
  refine ⟨by simp, ?_⟩
  intro i x err flag hx ho
  rw [List.getElem?_map, hx] at ho
  simp only [Option.map_some, Option.some.injEq, Prod.mk.injEq] at ho
  obtain ⟨rfl, rfl⟩ := ho
  obtain ⟨hmem, hmax⟩ := maxN_some _ _ hm
  constructor
  · exact hdist x
  · simp only [decide_eq_true_eq]
    constructor
    · intro hgt y hy e he
      rw [huniq y e (fun h => hne (h ▸ hy)) he]
      have := hmax (rowError f y) (List.mem_map.mpr ⟨y, hy, rfl⟩)
      have : rowError f y * threshold ≤ m * threshold := mul_le_mul_of_nonneg_right this ht
      linarith
    · intro hall
      obtain ⟨y, hy, e⟩ := List.mem_map.mp hmem
      cases e
      exact hall y hy _ (hdist y (fun h => hne (h ▸ hy)))

/-- C128: the test is refused exactly when there are no training data -/
theorem C128_refused (f : Fitted) (train data : List (List Rat)) (threshold : Rat) (e : Err) :
    errorOutliers f train data threshold = .error e ↔ train = [] ∧ e = .valueError := by
  unfold errorOutliers
  cases train with
  | nil => simp [maxN, eq_comm]
  | cons x xs =>
    rcases hm : maxN ((x :: xs).map (fun x => some (rowError f x))) with _ | m
    · exact absurd ⟨rowError f x, by simp⟩ ((maxN_none _).mp hm)
    · simp

/-- C128: with a threshold of at least one, no row of the training data is flagged; with a threshold
below one, a row of the training data is flagged unless all are reconstructed exactly -/
theorem C128_training {f : Fitted} {train : List (List Rat)} {threshold : Rat} {out : List (Rat × Bool)}
    (h : errorOutliers f train train threshold = .ok out) :
    (1 ≤ threshold → ∀ p ∈ out, p.2 = false) ∧
    (threshold < 1 → (∃ p ∈ out, 0 < p.1) → ∃ p ∈ out, p.2 = true) := by
  unfold errorOutliers at h
  split at h
  · cases h
  rename_i m hm
  cases h
  obtain ⟨hmem, hmax⟩ := maxN_some _ _ hm
  obtain ⟨y, hy, e⟩ := List.mem_map.mp hmem
  cases e
  have hm0 := rowError_nonneg f y
  constructor
  · intro ht p hp
    obtain ⟨x, hx, rfl⟩ := List.mem_map.mp hp
    have := hmax (rowError f x) (List.mem_map.mpr ⟨x, hx, rfl⟩)
    simp only [decide_eq_false_iff_not, gt_iff_lt, not_lt]
    nlinarith
  · rintro ht ⟨p, hp, hpos⟩
    obtain ⟨x, hx, rfl⟩ := List.mem_map.mp hp
    have := hmax (rowError f x) (List.mem_map.mpr ⟨x, hx, rfl⟩)
    refine ⟨_, List.mem_map.mpr ⟨y, hy, rfl⟩, ?_⟩
    simp only [decide_eq_true_eq, gt_iff_lt]
    simp only at hpos
    nlinarith

/-- reconstructions that keep only the first entry -/
example : (errorOutliers ⟨fun x => x.take 1, fun e => e ++ [0], 1, []⟩ [[1, 1], [2, -2]] [[5, 1], [5, 3], [5, 4]] (3/2)).toOption =
    some [(1/2, false), (3/2, false), (2, true)] := by decide +kernel

/-! ### C129 -/

/-- a square root, as far as it is needed -/
def RootLike (sqrt : Rat → Rat) : Prop := sqrt 0 = 0 ∧ ∀ x, 0 < x → 0 < sqrt x

theorem variance_pos {l : List Rat} (h : Varies l) : 0 < variance l := by
  obtain ⟨a, ha, b, hb, hab⟩ := h
  have hlen : 0 < l.length := List.length_pos_of_mem ha
  unfold variance
  set m := mean l
  unfold mean
  apply div_pos
  · have hne : ∃ c ∈ l, c ≠ m := by
      by_cases e : a = m
      · exact ⟨b, hb, fun e' => hab (e.trans e'.symm)⟩
      · exact ⟨a, ha, e⟩
    obtain ⟨c, hc, hcm⟩ := hne
    clear_value m
    clear hlen ha hb
    induction l with
    | nil => simp at hc
    | cons x xs ih =>
      rw [List.map_cons, List.sum_cons]
      have hrest : 0 ≤ (xs.map (fun x => (x - m) * (x - m))).sum := by
        apply sum_nonneg
        intro v hv
        obtain ⟨y, _, rfl⟩ := List.mem_map.mp hv
        exact mul_self_nonneg _
      rcases List.mem_cons.mp hc with rfl | hc
      · have : 0 < (c - m) * (c - m) := mul_self_pos.mpr (sub_ne_zero.mpr hcm)
        linarith
      · have := ih hc
        have := mul_self_nonneg (x - m)
        linarith
  · simpa using hlen

theorem variance_zero {l : List Rat} (h : ¬ Varies l) : variance l = 0 := by
  cases l with
  | nil => simp [variance, mean]
  | cons a as =>
    have hall : ∀ x ∈ a :: as, x = a := by
      intro x hx
      by_contra hne
      exact h ⟨x, hx, a, by simp, hne⟩
    have hrep : a :: as = List.replicate (as.length + 1) a := List.eq_replicate_iff.mpr ⟨by simp, hall⟩
    have hm : mean (a :: as) = a := by
      rw [hrep]; unfold mean
      rw [List.sum_replicate, List.length_replicate, nsmul_eq_mul]
      field_simp
    unfold variance
    rw [hm]
    have : (a :: as).map (fun x => (x - a) * (x - a)) = List.replicate (as.length + 1) 0 := by
      apply List.eq_replicate_iff.mpr
      refine ⟨by simp, ?_⟩
      intro v hv
      obtain ⟨x, hx, rfl⟩ := List.mem_map.mp hv
      rw [hall x hx]; ring
    rw [this]; unfold mean
    simp

/-- whitening does not matter to the comparison -/
theorem outside_iff {sqrt : Rat → Rat} (hs : RootLike sqrt) {l : List Rat} (hl : l ≠ []) {upper lower e : Rat}
    (hu0 : 0 ≤ upper) (hu1 : upper ≤ 100) (hl0 : 0 ≤ lower) (hl1 : lower ≤ 100) :
    outside sqrt upper lower l e = true ↔ Varies l ∧ (percentile upper l < e ∨ e < percentile lower l) := by
  by_cases hv : Varies l
  · have hd := hs.2 _ (variance_pos hv)
    have hw : whiten sqrt l = fun e => some ((e - mean l) / sqrt (variance l)) := by
      funext e; unfold whiten; rw [if_neg (ne_of_gt hd)]
    have hf : l.filterMap (whiten sqrt l) = l.map (fun e => (e - mean l) / sqrt (variance l)) := by
      rw [hw]; exact congrFun (List.filterMap_eq_map (f := fun e => (e - mean l) / sqrt (variance l))) l
    unfold outside
    rw [hf, hw]
    simp only [Bool.or_eq_true, decide_eq_true_eq, gt_iff_lt]
    rw [percentile_scale hl hd hu0 hu1, percentile_scale hl hd hl0 hl1, div_lt_div_iff_of_pos_right hd,
      div_lt_div_iff_of_pos_right hd]
    simp only [hv, true_and, sub_lt_sub_iff_right]
  · have hw : whiten sqrt l e = none := by unfold whiten; rw [variance_zero hv, if_pos hs.1]
    unfold outside
    rw [hw]
    simp [hv]

/-- C129: a row is flagged exactly when, in some component in which the training data vary, it lies
above the upper or below the lower percentile of the training data -/
theorem C129_flagged {sqrt : Rat → Rat} (hs : RootLike sqrt) {f : Fitted} {train data : List (List Rat)}
    {upper lower : Rat} {out : List Bool} (h : decompositionOutliers sqrt f train data upper lower = .ok out) :
    out.length = data.length ∧
    ∀ (i : Nat) (x : List Rat) (flag : Bool), data[i]? = some x → out[i]? = some flag →
      (flag = true ↔ ∃ j < f.ncomp, Varies (train.map (fun y => (f.embed y).getD j 0)) ∧
        ∃ U L, IsPercentile upper (train.map (fun y => (f.embed y).getD j 0)) U ∧
          IsPercentile lower (train.map (fun y => (f.embed y).getD j 0)) L ∧
          (U < (f.embed x).getD j 0 ∨ (f.embed x).getD j 0 < L)) := by
  unfold decompositionOutliers at h
  split at h
  · cases h
  rename_i hg
  push Not at hg
  obtain ⟨hne, hu0, hu1, hl0, hl1⟩ := hg
  cases h
  refine ⟨by simp, ?_⟩
  intro i x flag hx ho
  rw [List.getElem?_map, hx] at ho
  simp only [Option.map_some, Option.some.injEq] at ho
  subst ho
  rw [List.any_eq_true]
  have hne' : ∀ j, component f train j ≠ [] := fun j => by simp [component, hne]
  constructor
  · rintro ⟨j, hj, ho⟩
    obtain ⟨hv, hc⟩ := (outside_iff hs (hne' j) hu0 hu1 hl0 hl1).mp ho
    exact ⟨j, List.mem_range.mp hj, hv, _, _, percentile_is (hne' j) hu0 hu1, percentile_is (hne' j) hl0 hl1, hc⟩
  · rintro ⟨j, hj, hv, U, L, hU, hL, hc⟩
    refine ⟨j, List.mem_range.mpr hj, (outside_iff hs (hne' j) hu0 hu1 hl0 hl1).mpr ⟨hv, ?_⟩⟩
    rw [isPercentile_eq (hne' j) hu0 hu1 hU, isPercentile_eq (hne' j) hl0 hl1 hL] at hc
    exact hc

/-- C129: the test is refused exactly when there are no training data or a quantile is no percentage -/
theorem C129_refused (sqrt : Rat → Rat) (f : Fitted) (train data : List (List Rat)) (upper lower : Rat) (e : Err) :
    decompositionOutliers sqrt f train data upper lower = .error e ↔
      e = .valueError ∧ (train = [] ∨ ¬ (0 ≤ upper ∧ upper ≤ 100) ∨ ¬ (0 ≤ lower ∧ lower ≤ 100)) := by
  have hiff : (train = [] ∨ upper < 0 ∨ 100 < upper ∨ lower < 0 ∨ 100 < lower) ↔
      (train = [] ∨ ¬ (0 ≤ upper ∧ upper ≤ 100) ∨ ¬ (0 ≤ lower ∧ lower ≤ 100)) := by
    simp only [not_and_or, not_le]; tauto
  unfold decompositionOutliers
  rw [← hiff]
  split
  · rename_i hc; simp [hc, eq_comm]
  · rename_i hc; simp [hc]

/-- C129: every training row lies between the 0th and the 100th percentile, so none is flagged -/
theorem C129_training_all {sqrt : Rat → Rat} (hs : RootLike sqrt) {f : Fitted} {train : List (List Rat)}
    {out : List Bool} (h : decompositionOutliers sqrt f train train 100 0 = .ok out) : ∀ b ∈ out, b = false := by
  intro b hb
  obtain ⟨i, hi⟩ := List.mem_iff_getElem?.mp hb
  obtain ⟨hlen, hall⟩ := C129_flagged hs h
  obtain ⟨x, hx⟩ : ∃ x, train[i]? = some x := by
    have := (List.getElem?_eq_some_iff.mp hi).1
    exact ⟨_, List.getElem?_eq_getElem (by omega)⟩
  have hiff := hall i x b hx hi
  by_contra hbt
  have hbt : b = true := by cases b <;> simp_all
  obtain ⟨j, _, _, U, L, ⟨s, hp, hs', k, a, ha, hU⟩, ⟨s2, hp2, hs2, k2, a2, ha2, hL⟩, hc⟩ := hiff.mp hbt
  have hxs : (f.embed x).getD j 0 ∈ train.map (fun y => (f.embed y).getD j 0) :=
    List.mem_map.mpr ⟨x, List.mem_of_getElem? hx, rfl⟩
  generalize hl : train.map (fun y => (f.embed y).getD j 0) = l at *
  generalize (f.embed x).getD j 0 = e at *
  have hkn := (List.getElem?_eq_some_iff.mp ha).1
  have hsl := hp.length_eq
  rcases hc with hc | hc
  · obtain ⟨n, hn, hne⟩ := List.mem_iff_getElem.mp (hp.mem_iff.mpr hxs)
    have hka : U = a ∧ k + 1 = s.length := by
      rcases hU with ⟨h1, h2⟩ | ⟨b', hb', h1, h2, _⟩
      · refine ⟨h2, ?_⟩
        have : (k : Rat) + 1 = (l.length : Rat) := by rw [← h1]; ring
        have : k + 1 = l.length := by exact_mod_cast this
        omega
      · exfalso
        have hk2 := (List.getElem?_eq_some_iff.mp hb').1
        have : (l.length : Rat) < (k + 2 : Nat) := by push_cast; linarith
        have : l.length < k + 2 := by exact_mod_cast this
        omega
    have hle : s[n] ≤ s[k] := by
      rcases Nat.lt_or_ge n k with hlt | hge
      · exact List.pairwise_iff_getElem.mp hs' n k hn hkn hlt
      · have : n = k := by omega
        subst this; exact le_refl _
    have hak : s[k] = a := (List.getElem?_eq_some_iff.mp ha).2
    rw [hne, hak, ← hka.1] at hle
    linarith
  · have hk2n := (List.getElem?_eq_some_iff.mp ha2).1
    obtain ⟨n, hn, hne⟩ := List.mem_iff_getElem.mp (hp2.mem_iff.mpr hxs)
    have hka : L = a2 ∧ k2 = 0 := by
      rcases hL with ⟨h1, h2⟩ | ⟨b', hb', h1, h2, _⟩
      · refine ⟨h2, ?_⟩
        have : (k2 : Rat) = 0 := by rw [← h1]; ring
        exact_mod_cast this
      · exfalso
        have h3 : (0 : Rat) / 100 * ((l.length : Rat) - 1) = 0 := by ring
        rw [h3] at h1
        have : (0 : Rat) ≤ k2 := Nat.cast_nonneg _
        linarith
    obtain ⟨hL', rfl⟩ := hka
    have hle : s2[0] ≤ s2[n] := by
      rcases Nat.eq_zero_or_pos n with rfl | hpos
      · exact le_refl _
      · exact List.pairwise_iff_getElem.mp hs2 0 n (by omega) hn hpos
    have hak : s2[0] = a2 := (List.getElem?_eq_some_iff.mp ha2).2
    rw [hne, hak, ← hL'] at hle
    linarith

/-- C129: a wider range of quantiles never flags more -/
theorem C129_wider {sqrt : Rat → Rat} (hs : RootLike sqrt) {f : Fitted} {train data : List (List Rat)}
    {upper lower upper' lower' : Rat} {out out' : List Bool}
    (h : decompositionOutliers sqrt f train data upper lower = .ok out)
    (h' : decompositionOutliers sqrt f train data upper' lower' = .ok out')
    (hu : upper ≤ upper') (hl : lower' ≤ lower) (i : Nat) (hi : out'[i]? = some true) : out[i]? = some true := by
  unfold decompositionOutliers at h h'
  split at h
  · cases h
  rename_i hg
  split at h'
  · cases h'
  rename_i hg'
  push Not at hg hg'
  obtain ⟨hne, hu0, hu1, hl0, hl1⟩ := hg
  obtain ⟨_, hu0', hu1', hl0', hl1'⟩ := hg'
  cases h; cases h'
  rw [List.getElem?_map] at hi ⊢
  rcases hx : data[i]? with _ | x
  · rw [hx] at hi; cases hi
  rw [hx] at hi
  simp only [Option.map_some, Option.some.injEq, List.any_eq_true] at hi ⊢
  obtain ⟨j, hj, ho⟩ := hi
  have hne' : component f train j ≠ [] := by simp [component, hne]
  obtain ⟨hv, hc⟩ := (outside_iff hs hne' hu0' hu1' hl0' hl1').mp ho
  refine ⟨j, hj, (outside_iff hs hne' hu0 hu1 hl0 hl1).mpr ⟨hv, ?_⟩⟩
  have m1 := percentile_mono hne' hu0 hu hu1'
  have m2 := percentile_mono hne' hl0' hl hl1
  rcases hc with hc | hc
  · left; linarith
  · right; linarith

/-- a root that is good enough for the examples -/
example : RootLike (fun x => x) := ⟨rfl, fun _ h => h⟩

/-- one component varies, the other does not -/
example : (decompositionOutliers (fun x => x) ⟨fun x => x, fun x => x, 2, []⟩
    [[0, 7], [1, 7], [2, 7], [3, 7], [4, 7]] [[2, 7], [3, 9], [4, 7], [0, 7]] 75 25).toOption =
    some [false, false, true, true] := by decide +kernel

end Beep.Props.Pca
