import Verif.Proof.LinearModel
/-
Theorems about linear model experiments: C49, C51-C53.
-/
namespace Beep.Props.LinearModel
open Beep Pandas Text Table LinearModel Spec.Splitter Spec.LinearModel Proof.Table Proof.Splitter
  Proof.LinearModel

variable {H : Type}

theorem decide_has (m : Table) (r n : Str) : decide (Has m r n) = (cellOf m n r).isSome := Bool.decide_coe _

/-! ### Cleaning (C49) -/

theorem cols_eq {m : Table} (hn : m.names.Nodup) : m.cols = m.names.map (fun n => ⟨n, cellOf m n⟩) := by
  unfold Table.names
  rw [List.map_map]
  have : ∀ c ∈ m.cols, (⟨c.name, cellOf m c.name⟩ : Col) = c := by
    intro c hc
    have h := filter_col hn (List.mem_map.mpr ⟨c, hc, rfl⟩ : c.name ∈ m.names)
    have hm : c ∈ m.cols.filter (fun d => d.name = c.name) := List.mem_filter.mpr ⟨hc, by simp⟩
    rw [h, List.mem_singleton] at hm
    exact hm.symm
  conv_lhs => rw [← List.map_id m.cols]
  apply List.map_congr_left
  intro c hc
  exact (this c hc).symm

/-- C49, linear model: when both thresholds are the same, a feature is kept iff the fraction of the
samples having it reaches it, and a sample iff the fraction of the kept features it has reaches it and
it has all targets.  Missing for the whole property: see `C49_linear_violated`. -/
theorem C49_linear_partial (env : Env H) (a : Args H) (fm tm : Table) (e : Exp H)
    (h : construct env a fm tm = .ok e) (hth : a.featThresh = a.sampleThresh)
    (hn : (named a.homogenize fm).names.Nodup) (hnt : (named a.homogenize tm).names.Nodup) :
    e.featureLabels = (named a.homogenize fm).names.filter
      (fun n => a.featThresh ≤ featureFraction (named a.homogenize fm) n) ∧
    ∀ r, r ∈ e.X.rows ↔ r ∈ fm.rows ∧
      a.sampleThresh ≤ sampleFraction (named a.homogenize fm) e.featureLabels r ∧
      ∀ t ∈ a.targets, Has (named a.homogenize tm) r t := by
  obtain ⟨-, -, -, -, hl, -, -, hr, -, h2, h1, htar, -, -, -⟩ := construct_ok h
  have hrows : (named a.homogenize fm).rows = fm.rows := by unfold named; split <;> rfl
  have hsubl : (cleaned a fm).rows.Sublist (named a.homogenize fm).rows := List.filter_sublist
  have hpos : 0 < (named a.homogenize fm).rows.length := by
    have h3 := (List.filter_sublist (p := Proof.LinearModel.hasTargets a tm) (l := (cleaned a fm).rows)).length_le
    have h4 := hsubl.length_le
    rw [← hr] at h3
    omega
  have hen : ∀ n, decide (a.sampleThresh * (named a.homogenize fm).rows.length ≤
      rowsWith (named a.homogenize fm).rows ⟨n, cellOf (named a.homogenize fm) n⟩) =
      decide (a.featThresh ≤ featureFraction (named a.homogenize fm) n) := by
    intro n
    rw [decide_eq_decide, frac_iff _ _ _ hpos, hth]
    unfold featureFraction rowsWith
    simp only [decide_has]
  have hk : (Proof.LinearModel.kept a fm).cols = ((named a.homogenize fm).names.filter
      (fun n => a.featThresh ≤ featureFraction (named a.homogenize fm) n)).map
      (fun n => ⟨n, cellOf (named a.homogenize fm) n⟩) := by
    show List.filter _ (named a.homogenize fm).cols = _
    rw [cols_eq hn, List.filter_map]
    congr 1
    apply List.filter_congr
    intro n _
    exact hen n
  have hlab : e.featureLabels = (named a.homogenize fm).names.filter
      (fun n => a.featThresh ≤ featureFraction (named a.homogenize fm) n) := by
    rw [hl, cleaned_names]
    show (Proof.LinearModel.kept a fm).cols.map Col.name = _
    rw [hk, List.map_map]
    simp [Function.comp_def]
  refine ⟨hlab, ?_⟩
  intro r
  have hlen : (Proof.LinearModel.kept a fm).cols.length = e.featureLabels.length := by
    rw [hk, List.length_map, hlab]
  have hlpos : 0 < e.featureLabels.length := by
    rw [hl]; unfold Table.names; rw [List.length_map]; exact h1
  have hcw : colsWith (Proof.LinearModel.kept a fm).cols r =
      (e.featureLabels.filter (fun n => Has (named a.homogenize fm) r n)).length := by
    unfold colsWith
    rw [hk, ← hlab, List.filter_map, List.length_map]
    congr 1
    apply List.filter_congr
    intro n _
    rw [decide_has]; rfl
  have htar' : Proof.LinearModel.hasTargets a tm r = true ↔ ∀ t ∈ a.targets, Has (named a.homogenize tm) r t := by
    unfold Proof.LinearModel.hasTargets
    rw [select_cols hnt htar]
    simp [Has]
  have hcr : r ∈ (cleaned a fm).rows ↔ r ∈ fm.rows ∧
      a.sampleThresh ≤ sampleFraction (named a.homogenize fm) e.featureLabels r := by
    show r ∈ List.filter _ (named a.homogenize fm).rows ↔ _
    rw [List.mem_filter, decide_eq_true_eq, hcw, hlen, frac_iff _ _ _ hlpos, hrows]
    rfl
  rw [hr, List.mem_filter, hcr, htar']
  tauto

/-- C49, linear model: no feature is missing when every kept feature is present in some sample that
reaches the sample threshold.  Missing for the whole property: see `C49_linear_complete_violated`. -/
theorem C49_linear_complete_partial (env : Env H) (a : Args H) (fm tm : Table) (e : Exp H)
    (h : construct env a fm tm = .ok e) (hi : a.impute = .median ∨ a.impute = .mean)
    (hn : (named a.homogenize fm).names.Nodup)
    (hp : ∀ n ∈ e.featureLabels, ∃ q ∈ fm.rows,
      a.sampleThresh ≤ sampleFraction (named a.homogenize fm) e.featureLabels q ∧
      Has (named a.homogenize fm) q n) : Complete e.X := by
  obtain ⟨-, -, -, -, hl, -, hX, hr, -, h2, h1, -, -, -, -⟩ := construct_ok h
  have hrows : (named a.homogenize fm).rows = fm.rows := by unfold named; split <;> rfl
  intro r hrX c hc
  rw [hr, List.mem_filter] at hrX
  rw [hX] at hc
  change c ∈ (cleaned a fm).cols at hc
  unfold cleaned at hc
  simp only [List.mem_map] at hc
  obtain ⟨k, hk, rfl⟩ := hc
  refine (fillCol_isSome _ hi (cleaned a fm).rows k r hrX.1).mpr ?_
  have hkc : k ∈ (named a.homogenize fm).cols := (List.mem_filter.mp hk).1
  have hkn : k.name ∈ e.featureLabels := by
    rw [hl, cleaned_names]; exact List.mem_map.mpr ⟨k, hk, rfl⟩
  obtain ⟨q, hq, hqs, hqh⟩ := hp k.name hkn
  have hke : ∀ c ∈ (named a.homogenize fm).cols, c.cell = cellOf (named a.homogenize fm) c.name := by
    intro c hc
    rw [cols_eq hn] at hc
    obtain ⟨n, -, rfl⟩ := List.mem_map.mp hc
    rfl
  refine ⟨q, ?_, ?_⟩
  · show q ∈ List.filter _ (named a.homogenize fm).rows
    rw [List.mem_filter, decide_eq_true_eq, hrows]
    refine ⟨hq, ?_⟩
    have hlen : (Proof.LinearModel.kept a fm).cols.length = e.featureLabels.length := by
      rw [hl, cleaned_names]; unfold Table.names; simp
    have hlpos : 0 < e.featureLabels.length := by
      rw [hl]; unfold Table.names; rw [List.length_map]; exact h1
    have hcw : colsWith (Proof.LinearModel.kept a fm).cols q =
        (e.featureLabels.filter (fun n => Has (named a.homogenize fm) q n)).length := by
      rw [hl, cleaned_names]
      unfold colsWith Table.names
      rw [List.filter_map, List.length_map]
      congr 1
      apply List.filter_congr
      intro c hc
      show _ = decide (Has _ q c.name)
      rw [decide_has, hke c (List.mem_filter.mp hc).1]
    rw [hcw, hlen, frac_iff _ _ _ hlpos]
    exact hqs
  · rw [hke k hkc]; exact hqh

/-! ### Predictions (C51) -/

/-- the frame used for the prediction when the columns are exactly the training features -/
theorem predict_rows {e : Exp H} {X : Table} (hn : X.names.Nodup) (hx : Exactly e X)
    (hl0 : e.featureLabels ≠ []) :
    ((X.select e.featureLabels).dropRows (e.args.predictThresh * X.cols.length)).rows =
      X.rows.filter (fun r => Reaches e X r) ∧
    (X.select e.featureLabels).cols = e.featureLabels.map (fun n => ⟨n, cellOf X n⟩) := by
  have hin : ∀ n ∈ e.featureLabels, n ∈ X.names := fun n hn' => hx.mem_iff.mpr hn'
  have hcols := select_cols hn hin
  refine ⟨?_, hcols⟩
  show List.filter _ X.rows = _
  apply List.filter_congr
  intro r _
  have hlen : X.cols.length = e.featureLabels.length := by
    rw [← hx.length_eq]; unfold Table.names; simp
  have hpos : 0 < e.featureLabels.length := List.length_pos_iff.mpr hl0
  rw [decide_eq_decide, hlen, hcols]
  unfold Reaches sampleFraction
  rw [← frac_iff _ _ _ hpos]
  unfold colsWith
  rw [List.filter_map, List.length_map]
  have : List.filter ((fun c => (Col.cell c r).isSome) ∘ fun n => ⟨n, cellOf X n⟩) e.featureLabels =
      e.featureLabels.filter (fun n => decide (Has X r n)) := by
    apply List.filter_congr
    intro n _
    rw [decide_has]; rfl
  rw [this]

theorem names_any {e : Exp H} {X : Table} (hx : Exactly e X) :
    e.featureLabels.any (fun f => !(X.names.contains f)) = false := by
  rw [List.any_eq_false]
  intro f hf
  simp [hx.mem_iff.mpr hf]

/-- what `predict` does on a frame with exactly the training features -/
theorem predictFrame_eq {env : Env H} {e : Exp H} (ht : Trained env e) {X : Table} (hn : X.names.Nodup)
    (hx : Exactly e X) (m : Fitted) :
    ∃ Z : Table, Z.rows = X.rows.filter (fun r => Reaches e X r) ∧ Z.names = e.featureLabels ∧
      Z.cols = (e.featureLabels.map (fun n => ⟨n, cellOf X n⟩)).map (fillCol e.args.impute Z.rows) ∧
      predictFrame e m X =
        (if Z.rows = [] ∨ Z.cols.length ≠ e.scaler.length then .error .valueError
        else match finite (transform e.scaler Z) with
          | .error x => .error x
          | .ok xs => .ok (Z.rows.zip (xs.map (fun x => m.map (fun p => decision p x))),
              if X.rows.length ≠ Z.rows.length then X.rows.filter (fun s => !(Z.names.contains s)) else [])) := by
  obtain ⟨-, -, hl0, -, ho⟩ := trained_scaler ht
  obtain ⟨hrows, hcols⟩ := predict_rows hn hx hl0
  refine ⟨⟨X.rows.filter (fun r => Reaches e X r), (e.featureLabels.map (fun n => ⟨n, cellOf X n⟩)).map
    (fillCol e.args.impute (X.rows.filter (fun r => Reaches e X r)))⟩, rfl, ?_, rfl, ?_⟩
  · unfold Table.names
    rw [List.map_map, List.map_map]
    simp [Function.comp_def, fillCol_name]
  · unfold predictFrame
    rw [names_any hx]
    simp only [Bool.false_eq_true, if_false, bind, Except.bind]
    have himp : impute e.args.impute ((X.select e.featureLabels).dropRows
        (e.args.predictThresh * X.cols.length)) = .ok ⟨X.rows.filter (fun r => Reaches e X r),
          (e.featureLabels.map (fun n => ⟨n, cellOf X n⟩)).map
          (fillCol e.args.impute (X.rows.filter (fun r => Reaches e X r)))⟩ := by
      unfold impute
      split
      · rename_i hi; exact absurd hi ho
      · rw [hrows]
        show Except.ok (⟨_, (X.select e.featureLabels).cols.map _⟩ : Table) = _
        rw [hcols]
    rw [himp]
    dsimp only
    split
    · rfl
    · cases finite (transform e.scaler _) <;> rfl

theorem finite_transform {sc : Scaler} {Z : Table} (hlen : sc.length = Z.cols.length)
    (hs : ∀ p ∈ sc, p.isSome = true) :
    (Complete Z → ∃ xs, finite (transform sc Z) = .ok xs ∧ xs.length = Z.rows.length) ∧
    (¬ Complete Z → finite (transform sc Z) = .error .valueError) := by
  have hiff : (transform sc Z).all (fun r => r.all Option.isSome) = true ↔ Complete Z := by
    rw [List.all_eq_true]
    constructor
    · intro h r hr c hc
      have h1 := h _ (List.mem_map.mpr ⟨r, hr, rfl⟩)
      rw [List.all_eq_true] at h1
      obtain ⟨p, hp'⟩ := mem_zip_right _ _ hlen c hc
      have h2 := h1 _ (List.mem_map.mpr ⟨(p, c), hp', rfl⟩)
      unfold scaleCell at h2
      split at h2
      · rename_i heq; simp only at heq; rw [heq]; rfl
      · cases h2
    · intro hc row hrow
      obtain ⟨r, hr, rfl⟩ := List.mem_map.mp hrow
      rw [List.all_eq_true]
      intro v hv
      obtain ⟨⟨p, c⟩, hpc, rfl⟩ := List.mem_map.mp hv
      have h1 := hs p (List.of_mem_zip hpc).1
      have h2 := hc r hr c (List.of_mem_zip hpc).2
      obtain ⟨⟨mu, sd⟩, rfl⟩ := Option.isSome_iff_exists.mp h1
      obtain ⟨x, hx⟩ := Option.isSome_iff_exists.mp h2
      simp [scaleCell, hx]
  constructor
  · intro h
    refine ⟨(transform sc Z).map (fun r => r.filterMap id), ?_, ?_⟩
    · unfold finite; rw [if_pos (hiff.mpr h)]
    · unfold transform; simp
  · intro h
    unfold finite
    rw [if_neg (fun hh => h (hiff.mp hh))]

/-- completeness of the imputed frame -/
theorem complete_iff {e : Exp H} {X Z : Table} (hi : e.args.impute = .median ∨ e.args.impute = .mean)
    (hz : Z.rows = X.rows.filter (fun r => Reaches e X r)) (hne : Z.rows ≠ [])
    (hc : Z.cols = (e.featureLabels.map (fun n => ⟨n, cellOf X n⟩)).map (fillCol e.args.impute Z.rows)) :
    Complete Z ↔ ∀ n ∈ e.featureLabels, ∃ q ∈ X.rows, Reaches e X q ∧ Has X q n := by
  have hr : ∀ n, (∃ q ∈ Z.rows, (cellOf X n q).isSome = true) ↔ ∃ q ∈ X.rows, Reaches e X q ∧ Has X q n := by
    intro n
    rw [hz]
    simp only [List.mem_filter, decide_eq_true_eq, Has, and_assoc]
  constructor
  · intro h n hn
    obtain ⟨r, hrz⟩ := List.exists_mem_of_ne_nil _ hne
    have := h r hrz (fillCol e.args.impute Z.rows ⟨n, cellOf X n⟩) (by
      rw [hc, List.mem_map]
      exact ⟨_, List.mem_map.mpr ⟨n, hn, rfl⟩, rfl⟩)
    rw [fillCol_isSome _ hi _ _ _ hrz] at this
    exact (hr n).mp this
  · intro h r hrz c hcz
    rw [hc, List.mem_map] at hcz
    obtain ⟨d, hd, rfl⟩ := hcz
    obtain ⟨n, hn, rfl⟩ := List.mem_map.mp hd
    rw [fillCol_isSome _ hi _ _ _ hrz]
    exact (hr n).mpr (h n hn)

/-- C51: on a matrix with exactly the training features, in which every training feature occurs in some
sample that reaches the threshold, there is one prediction for precisely the samples that reach the
threshold, and no sample is listed as dropped when all reach it.  Missing for the whole property: see
`C51_dropped_violated`, `C51_extra_violated` and `C51_absent_feature_violated`. -/
theorem C51_predictions_partial (env : Env H) (e : Exp H) (ht : Trained env e)
    (hi : e.args.impute = .median ∨ e.args.impute = .mean) (X : Table) (h : Option Bool)
    (hn : (named (h.getD e.args.homogenize) X).names.Nodup)
    (hx : Exactly e (named (h.getD e.args.homogenize) X))
    (hsome : ∃ r ∈ X.rows, Reaches e (named (h.getD e.args.homogenize) X) r)
    (hp : ∀ n ∈ e.featureLabels, ∃ q ∈ X.rows, Reaches e (named (h.getD e.args.homogenize) X) q ∧
      Has (named (h.getD e.args.homogenize) X) q n) :
    ∃ out dropped, (predict e X h).2 = .ok (out, dropped) ∧
      out.map Prod.fst = X.rows.filter (fun r => Reaches e (named (h.getD e.args.homogenize) X) r) ∧
      ((∀ r ∈ X.rows, Reaches e (named (h.getD e.args.homogenize) X) r) → dropped = []) := by
  obtain ⟨hsl, hss, -, ⟨m, hm⟩, -⟩ := trained_scaler ht
  have hrows : (named (h.getD e.args.homogenize) X).rows = X.rows := by unfold named; split <;> rfl
  unfold predict
  rw [hm]
  show ∃ out dropped, predictFrame e m (named (h.getD e.args.homogenize) X) = _ ∧ _
  generalize named (h.getD e.args.homogenize) X = Y at *
  rw [← hrows] at hsome hp ⊢
  obtain ⟨Z, hz1, hz2, hz3, hz4⟩ := predictFrame_eq ht hn hx m
  have hne : Z.rows ≠ [] := by
    obtain ⟨r, hr, hre⟩ := hsome
    rw [hz1]
    exact List.ne_nil_of_mem (List.mem_filter.mpr ⟨hr, by simpa using hre⟩)
  have hzl : Z.cols.length = e.scaler.length := by rw [hz3, hsl]; simp
  rw [hz4, if_neg (by simp [hne, hzl])]
  obtain ⟨xs, hxs, hxl⟩ := (finite_transform hzl.symm hss).1 ((complete_iff hi hz1 hne hz3).mpr hp)
  rw [hxs]
  refine ⟨_, _, rfl, ?_, ?_⟩
  · rw [List.map_fst_zip (by rw [List.length_map, hxl]), hz1]
  · intro hall
    have : Z.rows = Y.rows := by
      rw [hz1, List.filter_eq_self]; simpa using hall
    rw [this]
    simp

/-- C51 fails for the list of dropped samples: as soon as one sample misses the threshold, every sample
is listed as dropped, including those that are predicted (unless a sample is called like a feature) -/
theorem C51_dropped_violated (env : Env H) (e : Exp H) (ht : Trained env e) (X : Table) (h : Option Bool)
    (hn : (named (h.getD e.args.homogenize) X).names.Nodup)
    (hx : Exactly e (named (h.getD e.args.homogenize) X))
    (hmiss : ∃ r ∈ X.rows, ¬ Reaches e (named (h.getD e.args.homogenize) X) r)
    (hlab : ∀ r ∈ X.rows, r ∉ e.featureLabels)
    (out : List (Str × List Rat)) (dropped : List Str) (hok : (predict e X h).2 = .ok (out, dropped)) :
    dropped = X.rows := by
  obtain ⟨hsl, hss, -, ⟨m, hm⟩, -⟩ := trained_scaler ht
  have hrows : (named (h.getD e.args.homogenize) X).rows = X.rows := by unfold named; split <;> rfl
  unfold predict at hok
  rw [hm] at hok
  change predictFrame e m (named (h.getD e.args.homogenize) X) = _ at hok
  generalize named (h.getD e.args.homogenize) X = Y at *
  rw [← hrows] at hmiss hlab ⊢
  obtain ⟨Z, hz1, hz2, hz3, hz4⟩ := predictFrame_eq ht hn hx m
  rw [hz4] at hok
  split at hok
  · cases hok
  split at hok
  · cases hok
  cases hok
  have hlt : Y.rows.length ≠ Z.rows.length := by
    obtain ⟨r, hr, hre⟩ := hmiss
    rw [hz1]
    have h2 := List.length_filter_lt_length_iff_exists (p := fun r => decide (Reaches e Y r)) (l := Y.rows) |>.mpr
      ⟨r, hr, by simpa using hre⟩
    omega
  rw [if_pos hlt, hz2, List.filter_eq_self]
  intro r hr
  simpa using hlab r hr

/-- C51 fails when a training feature is missing in every sample that reaches the threshold, as it is
for a single sample with one missing feature: the call raises, since missing values are imputed from
the samples to predict -/
theorem C51_absent_feature_violated (env : Env H) (e : Exp H) (ht : Trained env e)
    (hi : e.args.impute = .median ∨ e.args.impute = .mean) (X : Table) (h : Option Bool)
    (hn : (named (h.getD e.args.homogenize) X).names.Nodup)
    (hx : Exactly e (named (h.getD e.args.homogenize) X)) (n : Str) (hnl : n ∈ e.featureLabels)
    (hp : ∀ q ∈ X.rows, Reaches e (named (h.getD e.args.homogenize) X) q →
      ¬ Has (named (h.getD e.args.homogenize) X) q n) :
    (predict e X h).2 = .error .valueError := by
  obtain ⟨hsl, hss, -, ⟨m, hm⟩, -⟩ := trained_scaler ht
  have hrows : (named (h.getD e.args.homogenize) X).rows = X.rows := by unfold named; split <;> rfl
  unfold predict
  rw [hm]
  show predictFrame e m (named (h.getD e.args.homogenize) X) = _
  generalize named (h.getD e.args.homogenize) X = Y at *
  rw [← hrows] at hp
  obtain ⟨Z, hz1, hz2, hz3, hz4⟩ := predictFrame_eq ht hn hx m
  have hzl : Z.cols.length = e.scaler.length := by rw [hz3, hsl]; simp
  rw [hz4]
  by_cases hne : Z.rows = []
  · rw [if_pos (Or.inl hne)]
  · rw [if_neg (by simp [hne, hzl]), (finite_transform hzl.symm hss).2]
    rw [complete_iff hi hz1 hne hz3]
    intro hall
    obtain ⟨q, hq, hqr, hqh⟩ := hall n hnl
    exact hp q hq hqr hqh

/-! ### Repeated predictions (C52) -/

/-- C52: when names are not homogenized, `predict` leaves the matrix as it was and a second call gives
the same answer.  Missing for the whole property: see `C52_violated`. -/
theorem C52_unchanged_partial (e : Exp H) (X : Table) (h : Option Bool)
    (hh : h.getD e.args.homogenize = false) :
    (predict e X h).1 = X ∧ (predict e (predict e X h).1 h).2 = (predict e X h).2 := by
  have : (predict e X h).1 = X := by
    unfold predict
    split
    · rfl
    · rw [hh]; rfl
  exact ⟨this, by rw [this]⟩

/-! ### Saving and loading (C53) -/

theorem rename_rows (b : Bool) (m : Table) : (named b m).rows = m.rows := by unfold named; split <;> rfl

/-- C53: an experiment trained on all its data, none of which lacks a target, predicts the same after
saving and loading.  Missing for the whole property: see `C53_subset_violated`,
`C53_targets_violated` and `C53_own_violated`. -/
theorem C53_reload_partial (env : Env H) (a : Args H) (fm tm : Table) (e0 e : Exp H) (d : Saved H)
    (h : construct env a fm tm = .ok e0) (htr : train env e0 = .ok e) (hd : asDict e = .ok d)
    (hf : fm.names.Nodup) (ht : tm.names.Nodup) (hnt : (named a.homogenize tm).names.Nodup)
    (hall : a.dropNanTargets = false ∨
      ∀ r ∈ fm.rows, ∀ t ∈ a.targets, Has (named a.homogenize tm) r t) :
    ∃ e', fromDict env d = .ok e' ∧ ∀ X hom, predict e' X hom = predict e X hom := by
  obtain ⟨hfm, htm, harg, hmod, hl, hsc, hX, hr, hy, h2, h1, htar, ht0, ho, hdn⟩ := construct_ok h
  obtain ⟨m, rfl, -⟩ := trainOn_ok htr
  have hrows : e0.X.rows = (cleaned a fm).rows := by
    rw [hr, List.filter_eq_self]
    rcases hdn with hdn | hdn
    · rcases hall with hall | hall
      · rw [hall] at hdn; cases hdn
      · intro r hrc
        have hrf : r ∈ fm.rows := by
          have hsub : (cleaned a fm).rows.Sublist (named a.homogenize fm).rows := List.filter_sublist
          have := hsub.subset hrc
          rwa [rename_rows] at this
        unfold Proof.LinearModel.hasTargets
        rw [select_cols hnt htar]
        simpa [Has] using hall r hrf
    · exact hdn
  have hXX : e0.X = cleaned a fm := by rw [hX, hrows]; rfl
  have hscal : fit env e0.X = e0.scaler := by rw [hXX, hsc]
  unfold asDict at hd
  simp only at hd
  cases hd
  have hcf : fm.cols ≠ [] := by
    intro e
    have : (cleaned a fm).cols = [] := by
      have hk : (Proof.LinearModel.kept a fm).cols = [] := by
        show List.filter _ (named a.homogenize fm).cols = []
        have : (named a.homogenize fm).cols = [] := by
          unfold named; split
          · unfold Table.rename; simp [e]
          · exact e
        rw [this]; rfl
      unfold cleaned
      show List.map _ (Proof.LinearModel.kept a fm).cols = []
      rw [hk]; rfl
    rw [this] at h1
    simp at h1
  have hct : tm.cols ≠ [] := by
    intro e
    obtain ⟨t, htt⟩ := List.exists_mem_of_ne_nil _ ht0
    have := htar t htt
    have hz : (named a.homogenize tm).names = [] := by
      unfold named
      split
      · unfold Table.rename Table.names; simp [e]
      · unfold Table.names; simp [e]
    rw [hz] at this
    cases this
  refine ⟨{ e0 with model := some m }, ?_, ?_⟩
  · unfold fromDict
    dsimp only
    rw [hfm, htm, harg, viaDict_id fm hf hcf, viaDict_id tm ht hct, h]
    subst hfm htm harg
    rfl
  · intro X hom
    have : ({ e0 with scaler := fit env e0.X, model := some m } : Exp H) = { e0 with model := some m } := by
      rw [hscal]
    rw [this]

/-! ### Concrete cases -/

/-- a column over four samples -/
def demoCol (n : String) (r1 r2 r3 r4 : Option Rat) : Col :=
  ⟨n.toList, fun r => if r = "r1".toList then r1 else if r = "r2".toList then r2
    else if r = "r3".toList then r3 else if r = "r4".toList then r4 else none⟩

def demoRows : List Str := ["r1".toList, "r2".toList, "r3".toList, "r4".toList]

/-- the square roots that occur below are right; the estimator gives every feature the weight 1 -/
def demoEnv : Env Unit where
  sqrt := fun x => if x = 25 then 5 else if x = 1 then 1 else if x = 9 then 3 else if x = 4 then 2 else x
  learn := fun _ _ xs _ => .ok [((xs.headD []).map (fun _ => 1), 0)]

def demoArgs : Args Unit := { targets := ["y::T".toList], model := .lasso, hyper := () }

/-- two features with the deviation 5 -/
def demoFM : Table := ⟨demoRows, [demoCol "a::F::h" (some 1) (some (-1)) (some 7) (some (-7)),
  demoCol "b::F::h" (some 7) (some (-7)) (some 1) (some (-1))]⟩

def demoTM : Table := ⟨demoRows, [demoCol "y::T::k" (some 1) (some 2) (some 3) (some 4)]⟩

/-- the outcome as plain text -/
def shown (x : Except Err (List (Str × List Rat) × List Str)) :
    Option (List (String × List Rat) × List String) :=
  match x with
  | .ok (o, d) => some (o.map (fun p => (String.ofList p.1, p.2)), d.map String.ofList)
  | .error _ => none

/-- new samples: one lacks a feature, one lacks both -/
def demoNew : Table := ⟨["n1".toList, "n2".toList],
  [⟨"a::F::z".toList, fun r => if r = "n1".toList then some 5 else none⟩,
   ⟨"b::F::z".toList, fun r => if r = "n1".toList then some 10 else none⟩]⟩

/-- the hypotheses of the theorems above are met: an experiment can be made, trained, saved, loaded and
asked, and the reloaded one answers the same.  The sample n1 is predicted and yet listed as dropped. -/
example : (construct demoEnv demoArgs demoFM demoTM >>= train demoEnv).toOption.map
    (fun e => shown (predict e demoNew none).2) = some (some ([("n1", [3])], ["n1", "n2"])) := by
  decide +kernel

example : (construct demoEnv demoArgs demoFM demoTM >>= train demoEnv >>= fun e => asDict e >>=
    fromDict demoEnv).toOption.map (fun e => shown (predict e demoNew none).2) =
    some (some ([("n1", [3])], ["n1", "n2"])) := by
  decide +kernel

example : (construct demoEnv demoArgs demoFM demoTM >>= train demoEnv).toOption.map (fun e =>
    (decide (Exactly e (named true demoNew)), decide ((named true demoNew).names.Nodup),
      decide (Reaches e (named true demoNew) "n1".toList),
      decide (Reaches e (named true demoNew) "n2".toList))) = some (true, true, true, false) := by
  decide +kernel

/-- with equal thresholds: the feature of one sample in four goes -/
example : (construct demoEnv { demoArgs with featThresh := 1 / 2 }
    ⟨demoRows, [demoCol "a::F::h" (some 1) (some 2) (some 3) (some 4),
      demoCol "b::F::h" (some 1) none none none]⟩ demoTM).toOption.map
    (fun e => (e.featureLabels.map String.ofList, e.X.rows.map String.ofList)) =
    some (["a::F"], ["r1", "r2", "r3", "r4"]) := by decide +kernel

/-- C49 fails for the linear model: a feature that half of the samples have is kept although 95 percent
are asked for -/
theorem C49_linear_violated : ∃ (env : Env Unit) (a : Args Unit) (fm tm : Table) (e : Exp Unit) (n : Str),
    construct env a fm tm = .ok e ∧ n ∈ e.featureLabels ∧
    ¬ a.featThresh ≤ featureFraction (named a.homogenize fm) n := by
  let fm : Table := ⟨demoRows, [demoCol "a::F::h" (some 1) (some 2) (some 3) (some 4),
      demoCol "b::F::h" (some 1) (some 5) none none]⟩
  have key : (construct demoEnv demoArgs fm demoTM >>= fun e =>
      Except.ok (decide ("b::F".toList ∈ e.featureLabels) &&
        decide (¬ demoArgs.featThresh ≤ featureFraction (named demoArgs.homogenize fm) "b::F".toList))) =
      .ok true := by decide +kernel
  cases hs : construct demoEnv demoArgs fm demoTM with
  | error e => rw [hs] at key; cases key
  | ok s =>
    rw [hs] at key
    injection key with key
    simp only [Bool.and_eq_true, decide_eq_true_eq] at key
    exact ⟨demoEnv, demoArgs, fm, demoTM, s, _, hs, key.1, key.2⟩

/-- C49 fails for the linear model with the default thresholds: a kept feature may be missing in every
kept sample, and then it stays missing -/
theorem C49_linear_complete_violated : ∃ (env : Env Unit) (fm tm : Table) (e : Exp Unit),
    construct env demoArgs fm tm = .ok e ∧ ¬ Complete e.X := by
  let fm : Table := ⟨demoRows, [demoCol "a::F::h" (some 5) (some 6) none none,
      demoCol "b::F::h" none none (some 1) (some 1), demoCol "c::F::h" none none (some 1) (some 1)]⟩
  have key : (construct demoEnv demoArgs fm demoTM >>= fun s => Except.ok (s.X.rows.any (fun r =>
      s.X.cols.any (fun c => !((c.cell r).isSome))))) = .ok true := by decide +kernel
  cases hs : construct demoEnv demoArgs fm demoTM with
  | error e => rw [hs] at key; cases key
  | ok s =>
    rw [hs] at key
    injection key with key
    refine ⟨demoEnv, fm, demoTM, s, hs, ?_⟩
    intro hc
    simp only [List.any_eq_true] at key
    obtain ⟨r, hr, c, hcc, hn⟩ := key
    rw [hc r hr c hcc] at hn
    cases hn

/-- a trained experiment exists -/
theorem demo_trained (P : Exp Unit → Bool)
    (h : (construct demoEnv demoArgs demoFM demoTM >>= train demoEnv >>= fun e => Except.ok (P e)) = .ok true) :
    ∃ e, Trained demoEnv e ∧ P e = true := by
  cases hs : construct demoEnv demoArgs demoFM demoTM with
  | error e => rw [hs] at h; cases h
  | ok s =>
    rw [hs] at h
    change (train demoEnv s >>= _) = _ at h
    cases ht : train demoEnv s with
    | error e => rw [ht] at h; cases h
    | ok e =>
      rw [ht] at h
      injection h with h
      exact ⟨e, ⟨demoArgs, demoFM, demoTM, s, hs, Or.inl ht⟩, h⟩

/-- C51 fails with extra columns: a column that is not a training feature changes the outcome, here
from a prediction to an exception -/
theorem C51_extra_violated : ∃ (env : Env Unit) (e : Exp Unit) (X : Table) (c : Col),
    Trained env e ∧ Exactly e (named true X) ∧ stripLast c.name ∉ e.featureLabels ∧
    (∃ o, shown (predict e X none).2 = some o) ∧
    shown (predict e { X with cols := X.cols ++ [c] } none).2 = none := by
  let X : Table := ⟨["n1".toList],
    [⟨"a::F::z".toList, fun _ => some 5⟩, ⟨"b::F::z".toList, fun _ => some 10⟩]⟩
  let c : Col := ⟨"c::F::z".toList, fun _ => some 1⟩
  obtain ⟨e, he, h⟩ := demo_trained (fun e => decide (Exactly e (named true X)) &&
    decide (stripLast c.name ∉ e.featureLabels) && (shown (predict e X none).2).isSome &&
    decide (shown (predict e { X with cols := X.cols ++ [c] } none).2 = none)) (by decide +kernel)
  simp only [Bool.and_eq_true, decide_eq_true_eq, Option.isSome_iff_exists] at h
  exact ⟨demoEnv, e, X, c, he, h.1.1.1, h.1.1.2, h.1.2, h.2⟩

/-- C52 fails when names are homogenized: the first call strips the hash from the columns of the
caller's matrix, so the second one does not find the features -/
theorem C52_violated : ∃ (env : Env Unit) (e : Exp Unit) (X : Table),
    Trained env e ∧ (∃ o, shown (predict e X none).2 = some o) ∧
    shown (predict e (predict e X none).1 none).2 = none := by
  obtain ⟨e, he, h⟩ := demo_trained (fun e => (shown (predict e demoNew none).2).isSome &&
    decide (shown (predict e (predict e demoNew none).1 none).2 = none)) (by decide +kernel)
  simp only [Bool.and_eq_true, decide_eq_true_eq, Option.isSome_iff_exists] at h
  exact ⟨demoEnv, e, demoNew, he, h.1, h.2⟩

/-- C53 fails after `train_and_score`: the scaler of the reloaded experiment is fitted on all samples,
not on those the model was trained on -/
theorem C53_subset_violated : ∃ (env : Env Unit) (e0 e e' : Exp Unit) (d : Saved Unit) (fm tm : Table)
    (picked : List Str) (X : Table),
    construct env demoArgs fm tm = .ok e0 ∧ (∀ r ∈ picked, r ∈ e0.X.rows) ∧ picked ≠ [] ∧
    trainSubset env e0 picked = .ok e ∧ asDict e = .ok d ∧ fromDict env d = .ok e' ∧
    shown (predict e X none).2 ≠ shown (predict e' X none).2 := by
  let fm : Table := ⟨demoRows, [demoCol "a::F::h" (some 1) (some (-1)) (some 7) (some (-7))]⟩
  let X : Table := ⟨["n1".toList], [⟨"a::F::z".toList, fun _ => some 5⟩]⟩
  let picked : List Str := ["r1".toList, "r2".toList]
  have key : (construct demoEnv demoArgs fm demoTM >>= fun e0 => trainSubset demoEnv e0 picked >>= fun e =>
      asDict e >>= fun d => fromDict demoEnv d >>= fun e' =>
      Except.ok (decide (∀ r ∈ picked, r ∈ e0.X.rows) &&
        decide (shown (predict e X none).2 ≠ shown (predict e' X none).2))) = .ok true := by decide +kernel
  cases h0 : construct demoEnv demoArgs fm demoTM with
  | error x => rw [h0] at key; cases key
  | ok e0 =>
    rw [h0] at key
    change (trainSubset demoEnv e0 picked >>= _) = _ at key
    cases h1 : trainSubset demoEnv e0 picked with
    | error x => rw [h1] at key; cases key
    | ok e =>
      rw [h1] at key
      change (asDict e >>= _) = _ at key
      cases h2 : asDict e with
      | error x => rw [h2] at key; cases key
      | ok d =>
        rw [h2] at key
        change (fromDict demoEnv d >>= _) = _ at key
        cases h3 : fromDict demoEnv d with
        | error x => rw [h3] at key; cases key
        | ok e' =>
          rw [h3] at key
          injection key with key
          simp only [Bool.and_eq_true, decide_eq_true_eq] at key
          exact ⟨demoEnv, e0, e, e', d, fm, demoTM, picked, X, h0, key.1, by decide, h1, h2, h3, key.2⟩

/-- C53 fails when samples without targets were dropped: the scaler of the reloaded experiment is fitted
on them too -/
theorem C53_targets_violated : ∃ (env : Env Unit) (a : Args Unit) (e0 e e' : Exp Unit) (d : Saved Unit)
    (fm tm : Table) (X : Table),
    construct env a fm tm = .ok e0 ∧ train env e0 = .ok e ∧ asDict e = .ok d ∧ fromDict env d = .ok e' ∧
    shown (predict e X none).2 ≠ shown (predict e' X none).2 := by
  let fm : Table := ⟨demoRows, [demoCol "a::F::h" (some 1) (some (-1)) (some 7) (some (-7))]⟩
  let tm : Table := ⟨demoRows, [demoCol "y::T::k" (some 1) (some 2) none none]⟩
  let a : Args Unit := { demoArgs with dropNanTargets := true }
  let X : Table := ⟨["n1".toList], [⟨"a::F::z".toList, fun _ => some 5⟩]⟩
  have key : (construct demoEnv a fm tm >>= fun e0 => train demoEnv e0 >>= fun e =>
      asDict e >>= fun d => fromDict demoEnv d >>= fun e' =>
      Except.ok (decide (shown (predict e X none).2 ≠ shown (predict e' X none).2))) = .ok true := by
    decide +kernel
  cases h0 : construct demoEnv a fm tm with
  | error x => rw [h0] at key; cases key
  | ok e0 =>
    rw [h0] at key
    change (train demoEnv e0 >>= _) = _ at key
    cases h1 : train demoEnv e0 with
    | error x => rw [h1] at key; cases key
    | ok e =>
      rw [h1] at key
      change (asDict e >>= _) = _ at key
      cases h2 : asDict e with
      | error x => rw [h2] at key; cases key
      | ok d =>
        rw [h2] at key
        change (fromDict demoEnv d >>= _) = _ at key
        cases h3 : fromDict demoEnv d with
        | error x => rw [h3] at key; cases key
        | ok e' =>
          rw [h3] at key
          injection key with key
          simp only [decide_eq_true_eq] at key
          exact ⟨demoEnv, a, e0, e, e', d, fm, tm, X, h0, h1, h2, h3, key⟩

/-- C53 fails after predicting on the experiment's own feature matrix: its columns lost their hash, and
the reloaded experiment, which strips them once more, no longer finds the features of new samples -/
theorem C53_own_violated : ∃ (env : Env Unit) (e e' : Exp Unit) (d : Saved Unit) (X : Table),
    Trained env e ∧ asDict (predictOwn e none).1 = .ok d ∧ fromDict env d = .ok e' ∧
    (∃ o, shown (predict (predictOwn e none).1 X none).2 = some o) ∧
    shown (predict e' X none).2 = none := by
  obtain ⟨e, he, h⟩ := demo_trained (fun e =>
    match (asDict (predictOwn e none).1 : Except Err (Saved Unit)) with
    | .error _ => false
    | .ok d => match fromDict demoEnv d with
      | .error _ => false
      | .ok e' => (shown (predict (predictOwn e none).1 demoNew none).2).isSome &&
          decide (shown (predict e' demoNew none).2 = none)) (by decide +kernel)
  split at h
  · cases h
  rename_i d hd
  split at h
  · cases h
  rename_i e' he'
  simp only [Bool.and_eq_true, decide_eq_true_eq, Option.isSome_iff_exists] at h
  exact ⟨demoEnv, e, e', d, demoNew, he, hd, he', h.1, h.2⟩

end Beep.Props.LinearModel
