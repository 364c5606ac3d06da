import Verif.Spec.Prediction
import Verif.Proof.Stats
import Verif.Props.Splitter
import Verif.Props.LinearModel
/-
Theorems about imputed values (C49) and linear predictions (C71).
-/
namespace Beep.Props.Prediction
open Beep Pandas Text Table Spec.Stats Spec.Splitter Spec.LinearModel Spec.Prediction Proof.Table Proof.Stats

theorem present_nil (vs : List (Option Rat)) : present vs = [] ↔ ¬ ∃ v, some v ∈ vs := filterMap_id_nil vs

theorem fillValue_imputes (m : Impute) (hm : m ≠ .other) (vs : List (Option Rat)) :
    Imputes m (present vs) (fillValue m vs) := by
  unfold Imputes fillValue
  cases m with
  | median =>
    simp only
    cases h : medianN vs with
    | none => exact Or.inl ⟨(present_nil vs).mpr ((medianN_none vs).mp h), rfl⟩
    | some x => exact Or.inr ⟨x, rfl, (medianN_iff vs x).mp h⟩
  | mean =>
    simp only
    cases h : meanN vs with
    | none => exact Or.inl ⟨(present_nil vs).mpr ((meanN_none vs).mp h), rfl⟩
    | some x => exact Or.inr ⟨x, rfl, (meanN_iff vs x).mp h⟩
  | none => rfl
  | other => exact absurd rfl hm

theorem fillCol_none (m : Impute) (rows : List Str) (c : Col) (r : Str) (h : c.cell r = none) :
    (fillCol m rows c).cell r = fillValue m (rows.map c.cell) := by
  unfold fillCol; simp [h]

section
open Splitter Proof.Splitter Props.Splitter

/-- C49: without split and exclusion columns, a missing cell of the splitter's features gets the median
or mean of the values of that feature in the samples that reach the sample threshold -/
theorem C49_imputed (env : Env) (a : Args) (m : Table) (s : Splitter)
    (h : construct env a m = .ok s) (hsp : a.splitCols = none) (hex : a.exclusion = none)
    (hn : s.matrix.names.Nodup) (n : Str) (hx : n ∈ s.featureLabels) (r : Str)
    (hr : cellOf s.matrix n r = none) :
    Imputes a.impute (column s.matrix
      (m.rows.filter (fun q => a.sampleThresh ≤ sampleFraction s.matrix s.featureLabels q)) n)
      (cellOf s.X n r) := by
  have hlab := (C49_splitter_partial env a m s h hsp hex hn).1
  have hpos := rows_pos h
  obtain ⟨h1, -, h3, h4, -⟩ := construct_ok h
  obtain ⟨hmiss, -, -, -, hoth, -, h7, hX, -, -, -⟩ := clean_ok h3
  have hxn : n ∈ s.X.names := by rw [h4] at hx; exact (List.mem_filter.mp hx).1
  have hrows : (sampled a s.matrix).rows =
      m.rows.filter (fun q => a.sampleThresh ≤ sampleFraction s.matrix s.featureLabels q) := by
    have hall : ∀ k ∈ a.features, k ∈ s.matrix.names := by
      intro k hk
      apply missing_nil hmiss
      simp [hk]
    have hk : (kept a s.matrix).cols = (a.features.filter (enough s.matrix a.featThresh)).map
        (fun n => ⟨n, cellOf s.matrix n⟩) := by
      rw [kept_cols hn]
      · rw [hsp, hex]; simp
      · intro k hk
        rw [hsp, hex] at hk
        exact hall k (by simpa using hk)
    have hen : a.features.filter (enough s.matrix a.featThresh) = s.featureLabels := by
      rw [hlab]
      apply List.filter_congr
      intro n _
      unfold enough featureFraction
      rw [decide_eq_decide, Proof.Splitter.frac_iff _ _ _ hpos]
      simp only [Props.Splitter.decide_has]
    rw [hen] at hk
    have hlen : (kept a s.matrix).cols.length = s.featureLabels.length := by rw [hk, List.length_map]
    have hlpos : 0 < s.featureLabels.length := List.length_pos_of_mem hx
    have e : s.matrix.rows = m.rows := by rw [h1]; split <;> rfl
    show List.filter _ s.matrix.rows = _
    rw [e]
    apply List.filter_congr
    intro q _
    have hcw : colsWith (kept a s.matrix).cols q =
        (s.featureLabels.filter (fun n => Has s.matrix q n)).length := by
      unfold colsWith
      rw [hk, List.filter_map, List.length_map]
      congr 1
      apply List.filter_congr
      intro n _
      rw [Props.Splitter.decide_has]; rfl
    rw [decide_eq_decide, hcw, hlen, Proof.Splitter.frac_iff _ _ _ hlpos]
    rfl
  rw [cellOf_X h hn n hxn, hex]
  simp only [Option.getD_none, List.not_mem_nil, if_false]
  rw [fillCol_none _ _ _ _ hr, hrows]
  exact fillValue_imputes _ hoth _

end

section
open LinearModel Proof.LinearModel Props.LinearModel
variable {H : Type}

/-- the cleaned features, by name -/
theorem X_cols {env : Env H} {a : Args H} {fm tm : Table} {e : Exp H}
    (h : construct env a fm tm = .ok e) (hn : (named a.homogenize fm).names.Nodup) :
    e.featureLabels.Nodup ∧ e.X.names = e.featureLabels ∧
    e.X.cols = e.featureLabels.map (fun n => fillCol a.impute
      (fm.rows.filter (fun q => a.sampleThresh ≤ sampleFraction (named a.homogenize fm) e.featureLabels q))
      ⟨n, cellOf (named a.homogenize fm) n⟩) := by
  obtain ⟨-, -, -, -, hl, -, hX, -, -, -, h1, -, -, -, -⟩ := construct_ok h
  have hXc : e.X.cols = (cleaned a fm).cols := by rw [hX]; rfl
  have hXn : e.X.names = e.featureLabels := by rw [hl]; unfold Table.names; rw [hXc]
  have hsub : (kept a fm).cols.Sublist (named a.homogenize fm).cols := List.filter_sublist
  have hnd : e.featureLabels.Nodup := by
    rw [hl, cleaned_names]
    exact (hsub.map Col.name).nodup hn
  have hke : ∀ c ∈ (named a.homogenize fm).cols, c = ⟨c.name, cellOf (named a.homogenize fm) c.name⟩ := by
    intro c hc
    rw [cols_eq hn] at hc
    obtain ⟨n, -, rfl⟩ := List.mem_map.mp hc
    rfl
  have hk : (kept a fm).cols = e.featureLabels.map (fun n => ⟨n, cellOf (named a.homogenize fm) n⟩) := by
    rw [hl, cleaned_names]
    unfold Table.names
    rw [List.map_map]
    conv_lhs => rw [← List.map_id (kept a fm).cols]
    apply List.map_congr_left
    intro c hc
    exact hke c (hsub.subset hc)
  refine ⟨hnd, hXn, ?_⟩
  have hlen : (kept a fm).cols.length = e.featureLabels.length := by rw [hk, List.length_map]
  have hlpos : 0 < e.featureLabels.length := by
    rw [hl]; unfold Table.names; rw [List.length_map]; exact h1
  have hrows : (cleaned a fm).rows =
      fm.rows.filter (fun q => a.sampleThresh ≤ sampleFraction (named a.homogenize fm) e.featureLabels q) := by
    show List.filter _ (named a.homogenize fm).rows = _
    rw [rename_rows]
    apply List.filter_congr
    intro q _
    have hcw : colsWith (kept a fm).cols q =
        (e.featureLabels.filter (fun n => Has (named a.homogenize fm) q n)).length := by
      unfold colsWith
      rw [hk, List.filter_map, List.length_map]
      congr 1
      apply List.filter_congr
      intro n _
      rw [Props.LinearModel.decide_has]; rfl
    rw [decide_eq_decide, hcw, hlen, Proof.Splitter.frac_iff _ _ _ hlpos]
    rfl
  rw [hXc, ← hrows]
  show (kept a fm).cols.map (fillCol a.impute (cleaned a fm).rows) = _
  rw [hk, List.map_map]
  rfl

theorem cellOf_map {T : Table} {l : List Str} {g : Str → Col} (hc : T.cols = l.map g)
    (hg : ∀ n, (g n).name = n) {n : Str} (hn : n ∈ l) : cellOf T n = (g n).cell := by
  funext r
  unfold cellOf
  rw [hc]
  have : (l.map g).find? (fun c => c.name = n) = some (g n) := by
    clear hc
    induction l with
    | nil => cases hn
    | cons k l ih =>
      by_cases hk : k = n
      · subst hk; simp [hg]
      · rw [List.map_cons, List.find?_cons_of_neg (by simpa [hg] using hk)]
        exact ih (by rcases List.mem_cons.mp hn with e | e; exact absurd e.symm hk; exact e)
  rw [this]

/-- C49: a missing cell of the features of a linear model experiment gets the median or mean of the values
of that feature in the samples that reach the sample threshold; present cells stay -/
theorem C49_linear_imputed (env : Env H) (a : Args H) (fm tm : Table) (e : Exp H)
    (h : construct env a fm tm = .ok e) (hn : (named a.homogenize fm).names.Nodup) (n : Str)
    (hx : n ∈ e.featureLabels) (r : Str) :
    (∀ v, cellOf (named a.homogenize fm) n r = some v → cellOf e.X n r = some v) ∧
    (cellOf (named a.homogenize fm) n r = none →
      Imputes a.impute (column (named a.homogenize fm)
        (fm.rows.filter (fun q => a.sampleThresh ≤ sampleFraction (named a.homogenize fm) e.featureLabels q)) n)
        (cellOf e.X n r)) := by
  obtain ⟨-, -, hc⟩ := X_cols h hn
  obtain ⟨-, -, -, -, -, -, -, -, -, -, -, -, -, ho, -⟩ := construct_ok h
  rw [cellOf_map hc (fun _ => rfl) hx]
  constructor
  · intro v hv
    exact fillCol_some _ _ _ _ _ hv
  · intro hv
    rw [fillCol_none _ _ _ _ hv]
    exact fillValue_imputes _ ho _

/-! ### Predictions (C71) -/

theorem present_map (f : Rat → Rat) (vs : List (Option Rat)) :
    present (vs.map (Option.map f)) = (present vs).map f := by
  unfold present
  induction vs with
  | nil => rfl
  | cons v vs ih => cases v <;> simp_all

/-- a scaled cell is a standardised value -/
theorem scaled (env : Env H) (vs : List (Option Rat)) (v : Option Rat) (z : Rat)
    (h : scaleCell (fitCol env vs) v = some z) : ∃ x, v = some x ∧ IsStandardised env (present vs) x z := by
  unfold scaleCell at h
  split at h
  · rename_i mu sd x hf
    injection h with h
    refine ⟨x, rfl, ?_⟩
    unfold fitCol at hf
    split at hf
    · cases hf
    rename_i mu' hmu
    injection hf with hf
    injection hf with h1 h2
    subst h1
    have hm := (meanN_iff vs mu').mp hmu
    cases hv : meanN (vs.map (Option.map (fun x => (x - mu') * (x - mu')))) with
    | none =>
      exfalso
      rw [meanN_none, ← present_nil, present_map, List.map_eq_nil_iff] at hv
      exact hm.1 hv
    | some w =>
      have hw := (meanN_iff _ w).mp hv
      rw [present_map] at hw
      rw [hv] at h2
      exact ⟨mu', w, hm, hw, by rw [← h, ← h2]; rfl⟩
  · cases h

theorem forall₂_all {α β : Type} (l : List α) (f : α → Option β)
    (h : (l.map f).all Option.isSome = true) :
    List.Forall₂ (fun a z => f a = some z) l ((l.map f).filterMap id) := by
  induction l with
  | nil => exact .nil
  | cons a l ih =>
    rw [List.map_cons, List.all_cons, Bool.and_eq_true] at h
    obtain ⟨z, hz⟩ := Option.isSome_iff_exists.mp h.1
    rw [List.map_cons, hz]
    exact .cons hz (ih h.2)

theorem finite_ok {rows : List (List (Option Rat))} {xs : List (List Rat)} (h : finite rows = .ok xs) :
    (∀ r ∈ rows, r.all Option.isSome = true) ∧ xs = rows.map (fun r => r.filterMap id) := by
  unfold finite at h
  split at h
  · rename_i hall
    cases h
    exact ⟨List.all_eq_true.mp hall, rfl⟩
  · cases h

/-- one transformed row, by name -/
theorem transform_row (env : Env H) (rows : List Str) (l : List Str) (k g : Str → Col) (r : Str) :
    (((l.map k).map (fun c => fitCol env (rows.map c.cell))).zip (l.map g)).map
      (fun p => scaleCell p.1 (p.2.cell r)) =
    l.map (fun n => scaleCell (fitCol env (rows.map (k n).cell)) ((g n).cell r)) := by
  rw [List.map_map, List.zip_map', List.map_map]
  rfl

/-- the features a finite transformation gives -/
theorem features_of (env : Env H) (T : Table) (rows : List Str) (l : List Str) (k g : Str → Col)
    (hT : T.cols = l.map k) (hk : ∀ n, (k n).name = n) (hTn : T.names = l) (r : Str) (sample : Str → Option Rat)
    (hs : ∀ n ∈ l, sample n = (g n).cell r)
    (hall : (l.map (fun n => scaleCell (fitCol env (rows.map (k n).cell)) ((g n).cell r))).all
      Option.isSome = true) :
    IsFeatures env T rows sample
      ((l.map (fun n => scaleCell (fitCol env (rows.map (k n).cell)) ((g n).cell r))).filterMap id) := by
  unfold IsFeatures
  rw [hTn]
  have := forall₂_all _ _ hall
  rw [List.forall₂_iff_get] at this ⊢
  refine ⟨this.1, ?_⟩
  intro i h1 h2
  have h3 := this.2 i h1 h2
  obtain ⟨x, hx, hz⟩ := scaled env _ _ _ h3
  have hmem : l.get ⟨i, h1⟩ ∈ l := List.get_mem ..
  refine ⟨x, by rw [hs _ hmem, hx], ?_⟩
  unfold column
  rw [cellOf_map hT hk hmem]
  exact hz

theorem trainedOn_ok {env : Env H} {a : Args H} {fm tm : Table} {e0 e : Exp H} {rows : List Str}
    (h : construct env a fm tm = .ok e0) (ht : TrainedOn env e0 e rows) :
    rows ≠ [] ∧ trainOn env e0 (e0.X.loc rows) (e0.y.loc rows) = .ok e := by
  obtain ⟨-, -, -, -, -, -, hX, -, hy, h2, -, -, -, -, -⟩ := construct_ok h
  rcases ht with ⟨rfl, ht⟩ | ⟨hne, -, ht⟩
  · refine ⟨?_, ?_⟩
    · intro e; rw [e] at h2; simp at h2
    · have e1 : e0.X.loc e0.X.rows = e0.X := rfl
      have e2 : e0.y.loc e0.X.rows = e0.y := by rw [hy]; rfl
      rw [e1, e2]; exact ht
  · exact ⟨hne, ht⟩

theorem trainOn_learn {env : Env H} {e e' : Exp H} {X y : Table} (h : trainOn env e X y = .ok e') :
    ∃ m xs ys, finite (transform (fit env X) X) = .ok xs ∧
      finite (y.rows.map (fun r => y.cols.map (fun c => c.cell r))) = .ok ys ∧
      env.learn e.args.hyper e.args.model xs ys = .ok m ∧
      e' = { e with scaler := fit env X, model := some m } := by
  unfold trainOn at h
  simp only [bind, Except.bind] at h
  split at h
  · cases h
  rename_i xs hxs
  split at h
  · cases h
  rename_i ys hys
  split at h
  · cases h
  rename_i m hm
  cases h
  exact ⟨m, xs, ys, hxs, hys, hm, rfl⟩

/-- C71, which experiments exist: the estimator is known and there is at least one target, several
only with the elastic net; both matrices have as many samples; every target is a column -/
theorem C71_accepted (env : Env H) (a : Args H) (fm tm : Table) (e : Exp H)
    (h : construct env a fm tm = .ok e) :
    a.model ≠ .other ∧ a.targets ≠ [] ∧ (a.model ≠ .elasticnet → a.targets.length = 1) ∧
    fm.rows.length = tm.rows.length ∧ (∀ t ∈ a.targets, t ∈ (named a.homogenize tm).names) ∧
    e.model = none := by
  obtain ⟨-, -, -, hm, -, -, -, -, -, -, -, ht, hne, -, -⟩ := construct_ok h
  unfold construct at h
  split at h
  · cases h
  rename_i h1
  split at h
  · cases h
  rename_i h2
  split at h
  · cases h
  rename_i h3
  split at h
  · cases h
  split at h
  · cases h
  split at h
  · cases h
  rename_i h4
  refine ⟨h1, hne, ?_, not_not.mp h3, ht, hm⟩
  intro hel
  by_contra hl
  apply h4
  refine ⟨?_, hel⟩
  omega

/-- C71: the model is what the estimator learns from the standardised features of the training samples,
each with its own targets -/
theorem C71_training (env : Env H) (a : Args H) (fm tm : Table) (e0 e : Exp H) (rows : List Str)
    (h : construct env a fm tm = .ok e0) (ht : TrainedOn env e0 e rows)
    (hn : (named a.homogenize fm).names.Nodup) (hnt : (named a.homogenize tm).names.Nodup) :
    ∃ m xs ys, e.model = some m ∧ env.learn a.hyper a.model xs ys = .ok m ∧
      List.Forall₂ (fun r z => IsFeatures env e0.X rows (fun n => cellOf e0.X n r) z) rows xs ∧
      List.Forall₂ (fun r y => List.Forall₂ (fun t v => cellOf (named a.homogenize tm) t r = some v) a.targets y)
        rows ys := by
  obtain ⟨-, hXn, hXc⟩ := X_cols h hn
  obtain ⟨-, ht⟩ := trainedOn_ok h ht
  obtain ⟨-, -, harg, -, -, -, -, -, hy, -, -, htar, -, -, -⟩ := construct_ok h
  obtain ⟨m, xs, ys, hxs, hys, hm, rfl⟩ := trainOn_learn ht
  rw [harg] at hm
  refine ⟨m, xs, ys, rfl, hm, ?_, ?_⟩
  · obtain ⟨hall, rfl⟩ := finite_ok hxs
    have htr : transform (fit env (e0.X.loc rows)) (e0.X.loc rows) = rows.map (fun r =>
        e0.featureLabels.map (fun n => scaleCell (fitCol env (rows.map (fillCol a.impute
        (fm.rows.filter (fun q => a.sampleThresh ≤ sampleFraction (named a.homogenize fm) e0.featureLabels q))
        ⟨n, cellOf (named a.homogenize fm) n⟩).cell)) ((fillCol a.impute
        (fm.rows.filter (fun q => a.sampleThresh ≤ sampleFraction (named a.homogenize fm) e0.featureLabels q))
        ⟨n, cellOf (named a.homogenize fm) n⟩).cell r))) := by
      show rows.map _ = _
      apply List.map_congr_left
      intro r _
      show (((e0.X.cols).map (fun c => fitCol env (rows.map c.cell))).zip e0.X.cols).map _ = _
      rw [hXc, transform_row]
    rw [htr] at hall ⊢
    rw [List.map_map, List.forall₂_map_right_iff, List.forall₂_same]
    intro r hr
    exact features_of env e0.X rows _ _ _ hXc (fun _ => rfl) hXn r _
      (fun n hn => by rw [cellOf_map hXc (fun _ => rfl) hn]) (hall _ (List.mem_map.mpr ⟨r, hr, rfl⟩))
  · obtain ⟨hall, rfl⟩ := finite_ok hys
    have hyc : e0.y.cols = a.targets.map (fun t => ⟨t, cellOf (named a.homogenize tm) t⟩) := by
      rw [hy]
      exact Proof.Splitter.select_cols hnt htar
    change ∀ r ∈ rows.map (fun r => e0.y.cols.map (fun c => c.cell r)), _ at hall
    show List.Forall₂ _ rows ((rows.map (fun r => e0.y.cols.map (fun c => c.cell r))).map _)
    rw [hyc] at hall ⊢
    rw [List.map_map, List.forall₂_map_right_iff, List.forall₂_same]
    intro r hr
    have := hall _ (List.mem_map.mpr ⟨r, hr, rfl⟩)
    simp only [List.map_map, Function.comp_def] at this ⊢
    exact forall₂_all _ _ this

theorem linear_eq (p : List Rat × Rat) (z : List Rat) : decision p z = linear p.1 z p.2 := by
  unfold decision linear
  rw [List.zip_eq_zipWith, List.map_zipWith]

/-- what a successful prediction did -/
theorem predictFrame_ok {e : Exp H} {m : Fitted} {X : Table} {out : List (Str × List Rat)} {dropped : List Str}
    (hn : X.names.Nodup) (h : predictFrame e m X = .ok (out, dropped)) :
    e.args.impute ≠ .other ∧ (∀ n ∈ e.featureLabels, n ∈ X.names) ∧
    ∃ (rows : List Str) (xs : List (List Rat)),
      finite (transform e.scaler ⟨rows, e.featureLabels.map (fun n => fillCol e.args.impute rows ⟨n, cellOf X n⟩)⟩) =
        .ok xs ∧ out = rows.zip (xs.map (fun x => m.map (fun p => decision p x))) := by
  unfold predictFrame at h
  split at h
  · cases h
  rename_i hmiss
  have hin : ∀ n ∈ e.featureLabels, n ∈ X.names := by
    intro n hn'
    by_contra hc
    apply hmiss
    rw [List.any_eq_true]
    exact ⟨n, hn', by simpa using hc⟩
  simp only [bind, Except.bind] at h
  split at h
  · cases h
  rename_i Z hZ
  have hoth : e.args.impute ≠ .other := by
    intro e'; rw [e'] at hZ; cases hZ
  have hZ' := impute_ok hZ
  refine ⟨hoth, hin, Z.rows, ?_⟩
  have hcols : (⟨Z.rows, e.featureLabels.map (fun n => fillCol e.args.impute Z.rows ⟨n, cellOf X n⟩)⟩ : Table) = Z := by
    have h2 : ((X.select e.featureLabels).dropRows (e.args.predictThresh * X.cols.length)).cols =
        e.featureLabels.map (fun n => ⟨n, cellOf X n⟩) := Proof.Splitter.select_cols hn hin
    rw [hZ', h2, List.map_map]
    rfl
  rw [hcols]
  split at h
  · cases h
  split at h
  · cases h
  rename_i xs hxs
  cases h
  exact ⟨xs, hxs, rfl⟩

theorem mem_zip_map {α β : Type} (l : List α) (f : α → β) (a : α) (b : β) (h : (a, b) ∈ l.zip (l.map f)) :
    a ∈ l ∧ b = f a := by
  induction l with
  | nil => cases h
  | cons x l ih =>
    rw [List.map_cons, List.zip_cons_cons, List.mem_cons] at h
    rcases h with h | h
    · cases h; exact ⟨List.mem_cons_self, rfl⟩
    · exact ⟨List.mem_cons_of_mem _ (ih h).1, (ih h).2⟩

/-- C71: every prediction is the intercept plus the weighted sum of the features of the sample,
standardised with the training samples; where the sample lacks a feature, the value imputed from the
samples predicted together is used -/
theorem C71_prediction (env : Env H) (a : Args H) (fm tm : Table) (e0 e : Exp H) (rows : List Str)
    (h : construct env a fm tm = .ok e0) (ht : TrainedOn env e0 e rows)
    (hn : (named a.homogenize fm).names.Nodup) (X : Table) (hom : Option Bool)
    (hnX : (named (hom.getD a.homogenize) X).names.Nodup) (out : List (Str × List Rat)) (dropped : List Str)
    (hok : (predict e X hom).2 = .ok (out, dropped)) (r : Str) (ps : List Rat) (hr : (r, ps) ∈ out) :
    ∃ m z sample, e.model = some m ∧ IsFeatures env e0.X rows sample z ∧
      ps = m.map (fun p => linear p.1 z p.2) ∧
      ∀ n ∈ e0.X.names,
        (∀ v, cellOf (named (hom.getD a.homogenize) X) n r = some v → sample n = some v) ∧
        (cellOf (named (hom.getD a.homogenize) X) n r = none →
          Imputes a.impute (column (named (hom.getD a.homogenize) X) (out.map Prod.fst) n) (sample n)) := by
  obtain ⟨-, hXn, hXc⟩ := X_cols h hn
  obtain ⟨-, ht⟩ := trainedOn_ok h ht
  obtain ⟨-, -, harg, -, -, -, -, -, -, -, -, -, -, -, -⟩ := construct_ok h
  obtain ⟨m, txs, ys, -, -, -, rfl⟩ := trainOn_learn ht
  unfold predict at hok
  dsimp only at hok
  rw [harg] at hok
  change predictFrame _ m (named (hom.getD a.homogenize) X) = _ at hok
  generalize named (hom.getD a.homogenize) X = Y at *
  obtain ⟨hoth, hin, prows, xs, hxs, rfl⟩ := predictFrame_ok hnX hok
  dsimp only at hoth hin hxs
  obtain ⟨hall, rfl⟩ := finite_ok hxs
  have htr : transform (fit env (e0.X.loc rows)) ⟨prows, e0.featureLabels.map (fun n => fillCol a.impute prows
      ⟨n, cellOf Y n⟩)⟩ = prows.map (fun r => e0.featureLabels.map (fun n => scaleCell (fitCol env (rows.map
      (fillCol a.impute (fm.rows.filter (fun q => a.sampleThresh ≤
        sampleFraction (named a.homogenize fm) e0.featureLabels q))
        ⟨n, cellOf (named a.homogenize fm) n⟩).cell)) ((fillCol a.impute prows ⟨n, cellOf Y n⟩).cell r))) := by
    show prows.map _ = _
    apply List.map_congr_left
    intro r _
    show (((e0.X.cols).map (fun c => fitCol env (rows.map c.cell))).zip _).map _ = _
    rw [hXc, transform_row]
  rw [htr] at hall hr ⊢
  rw [List.map_map, List.map_map] at hr
  obtain ⟨hmem, rfl⟩ := mem_zip_map _ _ _ _ hr
  refine ⟨m, _, fun n => (fillCol a.impute prows ⟨n, cellOf Y n⟩).cell r, rfl,
    features_of env e0.X rows _ _ _ hXc (fun _ => rfl) hXn r _ (fun n _ => rfl)
      (hall _ (List.mem_map.mpr ⟨r, hmem, rfl⟩)), ?_, ?_⟩
  · simp only [Function.comp_def, linear_eq]
  · intro n _
    rw [List.map_fst_zip (by simp)]
    refine ⟨fun v hv => fillCol_some _ _ _ _ _ hv, ?_⟩
    intro hv
    show Imputes _ _ ((fillCol a.impute prows ⟨n, cellOf Y n⟩).cell r)
    rw [fillCol_none _ _ _ _ hv]
    exact fillValue_imputes _ hoth _

theorem isMean_unique {l : List Rat} {m m' : Rat} (h : IsMean l m) (h' : IsMean l m') : m = m' := by
  have hl : (l.length : Rat) ≠ 0 := by
    have := h.1
    intro e
    exact this (List.length_eq_zero_iff.mp (by exact_mod_cast e))
  exact mul_right_cancel₀ hl (h.2.trans h'.2.symm)

theorem isFeatures_unique {env : Env H} {T : Table} {rows : List Str} {s s' : Str → Option Rat} {z z' : List Rat}
    (h : IsFeatures env T rows s z) (h' : IsFeatures env T rows s' z') (hs : ∀ n ∈ T.names, s n = s' n) :
    z = z' := by
  unfold IsFeatures at h h'
  generalize T.names = l at *
  induction h generalizing z' with
  | nil => cases h'; rfl
  | cons hz _ ih =>
    cases h' with
    | cons hz' ht' =>
      rw [ih ht' (fun n hn => hs n (List.mem_cons_of_mem _ hn))]
      obtain ⟨x, hx, mu, v, hm, hv, rfl⟩ := hz
      obtain ⟨x', hx', mu', v', hm', hv', rfl⟩ := hz'
      have e1 := isMean_unique hm hm'
      subst e1
      have e2 := isMean_unique hv hv'
      subst e2
      have e3 : some x = some x' := by rw [← hx, ← hx']; exact hs _ List.mem_cons_self
      injection e3 with e3
      rw [e3]

/-- C71: the prediction for a sample that has all training features depends only on the model and on its
features, not on the other samples of the call.  Missing for the whole property: see `C71_violated`. -/
theorem C71_alone_partial (env : Env H) (a : Args H) (fm tm : Table) (e0 e : Exp H) (rows : List Str)
    (h : construct env a fm tm = .ok e0) (ht : TrainedOn env e0 e rows)
    (hn : (named a.homogenize fm).names.Nodup) (X X' : Table) (hom hom' : Option Bool)
    (hnX : (named (hom.getD a.homogenize) X).names.Nodup)
    (hnX' : (named (hom'.getD a.homogenize) X').names.Nodup)
    (out out' : List (Str × List Rat)) (dropped dropped' : List Str)
    (hok : (predict e X hom).2 = .ok (out, dropped)) (hok' : (predict e X' hom').2 = .ok (out', dropped'))
    (r r' : Str) (ps ps' : List Rat) (hr : (r, ps) ∈ out) (hr' : (r', ps') ∈ out')
    (hsame : ∀ n ∈ e0.X.names, ∃ v, cellOf (named (hom.getD a.homogenize) X) n r = some v ∧
      cellOf (named (hom'.getD a.homogenize) X') n r' = some v) : ps = ps' := by
  obtain ⟨m, z, s, hm, hz, rfl, hs⟩ := C71_prediction env a fm tm e0 e rows h ht hn X hom hnX out dropped hok r ps hr
  obtain ⟨m', z', s', hm', hz', rfl, hs'⟩ :=
    C71_prediction env a fm tm e0 e rows h ht hn X' hom' hnX' out' dropped' hok' r' ps' hr'
  rw [hm] at hm'
  injection hm' with hm'
  rw [hm', isFeatures_unique hz hz' ?_]
  intro n hn'
  obtain ⟨v, h1, h2⟩ := hsame n hn'
  rw [(hs n hn').1 v h1, (hs' n hn').1 v h2]

/-! ### Concrete cases -/

/-- the training features of `demoFM` have mean 0 and deviation 5 -/
example : (construct demoEnv demoArgs demoFM demoTM >>= train demoEnv).toOption.map (fun e =>
    (decide ((named true demoFM).names.Nodup), decide ((named true demoTM).names.Nodup), e.scaler)) =
    some (true, true, [some (0, 5), some (0, 5)]) := by decide +kernel

/-- imputation with an even number of present values: the median of 1, 2, 3 and 10, the mean of them -/
example : (construct demoEnv { demoArgs with sampleThresh := 0 }
    ⟨demoRows ++ ["r5".toList], [demoCol "a::F::h" (some 3) (some 10) (some 1) (some 2)]⟩
    ⟨demoRows ++ ["r5".toList], [⟨"y::T::k".toList, fun _ => some 1⟩]⟩).toOption.map
    (fun e => cellOf e.X "a::F".toList "r5".toList) = some (some (5 / 2)) := by decide +kernel

example : (construct demoEnv { demoArgs with sampleThresh := 0, impute := .mean }
    ⟨demoRows ++ ["r5".toList], [demoCol "a::F::h" (some 3) (some 10) (some 1) (some 2)]⟩
    ⟨demoRows ++ ["r5".toList], [⟨"y::T::k".toList, fun _ => some 1⟩]⟩).toOption.map
    (fun e => cellOf e.X "a::F".toList "r5".toList) = some (some 4) := by decide +kernel

/-- three samples to predict; n1 lacks a feature -/
def demoThree : Table := ⟨["n1".toList, "n2".toList, "n3".toList],
  [⟨"a::F::z".toList, fun _ => some 5⟩,
   ⟨"b::F::z".toList, fun r => if r = "n2".toList then some 10 else if r = "n3".toList then some 20 else none⟩]⟩

/-- the prediction for a sample in a call -/
def predOf (e : Exp Unit) (X : Table) (r : Str) : Option (List Rat) :=
  match (predict e X none).2 with
  | .ok (o, _) => (o.find? (fun p => p.1 = r)).map Prod.snd
  | .error _ => none

theorem predOf_some {e : Exp Unit} {X : Table} {r : Str} {p : List Rat} (h : predOf e X r = some p) :
    ∃ out d, (predict e X none).2 = .ok (out, d) ∧ (r, p) ∈ out := by
  unfold predOf at h
  split at h
  · rename_i o d ho
    obtain ⟨⟨r', p'⟩, h1, rfl⟩ := Option.map_eq_some_iff.mp h
    have := List.find?_some h1
    simp only [decide_eq_true_eq] at this
    subst this
    exact ⟨o, d, ho, List.mem_of_find?_eq_some h1⟩
  · cases h

/-- C71 fails for a sample that lacks a feature: the same sample of the same matrix is predicted
differently depending on which other sample is predicted with it -/
theorem C71_violated : ∃ (env : Env Unit) (e : Exp Unit) (X : Table) (r q q' : Str) (out out' : List (Str × List Rat))
    (d d' : List Str) (p p' : List Rat),
    Trained env e ∧ (predict e (X.loc [r, q]) none).2 = .ok (out, d) ∧
    (predict e (X.loc [r, q']) none).2 = .ok (out', d') ∧ (r, p) ∈ out ∧ (r, p') ∈ out' ∧ p ≠ p' := by
  let a : Args Unit := { demoArgs with predictThresh := 1 / 2 }
  have key : (construct demoEnv a demoFM demoTM >>= train demoEnv >>= fun e =>
      Except.ok (decide (predOf e (demoThree.loc ["n1".toList, "n2".toList]) "n1".toList = some [3]) &&
        decide (predOf e (demoThree.loc ["n1".toList, "n3".toList]) "n1".toList = some [5]))) = .ok true := by
    decide +kernel
  cases hs : construct demoEnv a demoFM demoTM with
  | error e => rw [hs] at key; cases key
  | ok s =>
    rw [hs] at key
    change (train demoEnv s >>= _) = _ at key
    cases ht : train demoEnv s with
    | error e => rw [ht] at key; cases key
    | ok e =>
      rw [ht] at key
      injection key with key
      simp only [Bool.and_eq_true, decide_eq_true_eq] at key
      obtain ⟨out, d, h1, h2⟩ := predOf_some key.1
      obtain ⟨out', d', h1', h2'⟩ := predOf_some key.2
      exact ⟨demoEnv, e, demoThree, _, _, _, out, out', d, d', [3], [5],
        ⟨a, demoFM, demoTM, s, hs, Or.inl ht⟩, h1, h1', h2, h2', by decide +kernel⟩

end

end Beep.Props.Prediction
