import Verif.Proof.TrainCmd
/-
Theorems about scores and the commands `beep train` and `beep predict` (C114-C117).
-/
namespace Beep.Props.TrainCmd
open Beep Table LinearModel TrainCmd Spec.Stats Spec.LinearModel Spec.Splitter Spec.Prediction Spec.TrainCmd
open Proof.TrainCmd Proof.LinearModel Props.LinearModel Props.Prediction
open Beep.Batch (Files)

/-! ### Scores (C116) -/

/-- the columns of the targets, by name -/
theorem y_cols {H : Type} {env : Env H} {a : Args H} {fm tm : Table} {e0 : Exp H}
    (h : construct env a fm tm = .ok e0) (hnt : (named a.homogenize tm).names.Nodup) :
    e0.y.cols = a.targets.map (fun t => ⟨t, cellOf (named a.homogenize tm) t⟩) := by
  obtain ⟨-, -, -, -, -, -, -, -, hy, -, -, htar, -, -, -⟩ := construct_ok h
  rw [hy]
  exact Proof.Splitter.select_cols hnt htar

theorem targets_get {a : Args Hyper} {tm : Table} {cols : List Col}
    (hc : cols = a.targets.map (fun t => ⟨t, cellOf (named a.homogenize tm) t⟩)) {j : Nat} {t : Str}
    (hj : a.targets[j]? = some t) : cols[j]? = some ⟨t, cellOf (named a.homogenize tm) t⟩ := by
  rw [hc, List.getElem?_map, hj]; rfl

theorem trainScored_ok {env : Env Hyper} {e0 e : Exp Hyper} {X y : Table} {errs : List (Str × Scores)}
    (h : trainScored env e0 X y = .ok (e, errs)) :
    trainOn env e0 X y = .ok e ∧ ∃ xs, finite (transform e.scaler X) = .ok xs ∧
      scoreTable env.sqrt y (xs.map (fun x => (e.model.getD []).map (fun p => decision p x))) = .ok errs := by
  unfold trainScored at h
  simp only [bind, Except.bind] at h
  split at h
  · cases h
  rename_i e' he
  split at h
  · cases h
  rename_i xs hxs
  split at h
  · cases h
  rename_i er her
  cases h
  exact ⟨he, xs, hxs, her⟩

theorem trainAndScore_ok {env : Env Hyper} {split : Rat → List Str → Except Err (List Str × List Str)} {q : Rat}
    {e0 e : Exp Hyper} {tr te : List (Str × Scores)} (h : trainAndScore env split q e0 = .ok (e, tr, te)) :
    ∃ rows rest out d, split q e0.X.rows = .ok (rows, rest) ∧
      trainScored env e0 (e0.X.loc rows) (e0.y.loc rows) = .ok (e, tr) ∧
      (predict e (e0.X.loc rest) (some false)).2 = .ok (out, d) ∧
      scoreTable env.sqrt (e0.y.loc rest) (out.map Prod.snd) = .ok te := by
  unfold trainAndScore at h
  simp only [bind, Except.bind] at h
  split at h
  · cases h
  rename_i s hs
  split at h
  · cases h
  rename_i t ht
  split at h
  · cases h
  rename_i p hp
  split at h
  · cases h
  rename_i er her
  cases h
  exact ⟨s.1, s.2, p.1, p.2, hs, ht, hp, her⟩

/-- C116: `train_and_score` trains on the samples drawn for training and tests on all the others.  The
test errors of each target compare, for every held-out sample, its value in the target matrix with the
prediction the trained experiment makes for it. -/
theorem C116_test (env : Env Hyper) (split : Rat → List Str → Except Err (List Str × List Str))
    (hs : Splits split) (a : Args Hyper) (fm tm : Table) (e0 e : Exp Hyper) (q : Rat)
    (tr te : List (Str × Scores)) (hc : construct env a fm tm = .ok e0)
    (hnt : (named a.homogenize tm).names.Nodup) (h : trainAndScore env split q e0 = .ok (e, tr, te)) :
    ∃ rows rest out d, split q e0.X.rows = .ok (rows, rest) ∧ TrainedOn env e0 e rows ∧
      (predict e (e0.X.loc rest) (some false)).2 = .ok (out, d) ∧ out.map Prod.fst = rest ∧
      te.length = a.targets.length ∧ ∀ (j : Nat) (t : Str), a.targets[j]? = some t →
        ∃ s pairs, te[j]? = some (t, s) ∧ Measures env.sqrt pairs s ∧
          List.Forall₂ (fun rp yp => cellOf (named a.homogenize tm) t rp.1 = some yp.1 ∧ rp.2[j]? = some yp.2)
            out pairs := by
  obtain ⟨rows, rest, out, d, h1, h2, h3, h4⟩ := trainAndScore_ok h
  obtain ⟨hperm, hne, hne'⟩ := hs _ _ _ _ h1
  obtain ⟨h5, -⟩ := trainScored_ok h2
  have hyc := y_cols hc hnt
  have hsub := predict_sub h3
  have hle : (out.map Prod.snd).length ≤ ((e0.y.loc rest).rows).length := by
    have := hsub.length_le
    simp only [List.length_map] at this ⊢
    exact this
  obtain ⟨h6, h7⟩ := scoreTable_ok h4 hle
  have hlen : te.length = a.targets.length := by
    rw [h6]; show e0.y.cols.length = _
    rw [hyc, List.length_map]
  have hall : out.map Prod.fst = rest := by
    obtain ⟨t, ht⟩ := List.exists_mem_of_ne_nil _ (construct_ok hc).2.2.2.2.2.2.2.2.2.2.2.2.1
    obtain ⟨j, hj⟩ := List.getElem?_of_mem ht
    have := (h7 j _ (targets_get hyc hj)).1
    apply hsub.eq_of_length
    simp only [List.length_map] at this ⊢
    exact this
  refine ⟨rows, rest, out, d, h1, ?_, h3, hall, hlen, ?_⟩
  · exact Or.inr ⟨hne, fun r hr => hperm.subset (List.mem_append_left _ hr), h5⟩
  · intro j t hj
    obtain ⟨-, s, pairs, hs1, hm, hp⟩ := h7 j _ (targets_get hyc hj)
    refine ⟨s, pairs, hs1, hm, ?_⟩
    have hz : (e0.y.loc rest).rows.zip (out.map Prod.snd) = out := by
      show rest.zip (out.map Prod.snd) = out
      rw [← hall]
      exact (List.zip_of_prod rfl rfl).symm
    rw [hz] at hp
    exact hp

/-- C116: the training errors compare, for every sample trained on, its value in the target matrix with
the value of the fitted linear function at its standardised features -/
theorem C116_training (env : Env Hyper) (a : Args Hyper) (fm tm : Table) (e0 e : Exp Hyper) (rows : List Str)
    (tr : List (Str × Scores)) (hc : construct env a fm tm = .ok e0)
    (hn : (named a.homogenize fm).names.Nodup) (hnt : (named a.homogenize tm).names.Nodup)
    (h : trainScored env e0 (e0.X.loc rows) (e0.y.loc rows) = .ok (e, tr)) :
    ∃ m zs, e.model = some m ∧
      List.Forall₂ (fun r z => IsFeatures env e0.X rows (fun n => cellOf e0.X n r) z) rows zs ∧
      tr.length = a.targets.length ∧ ∀ (j : Nat) (t : Str), a.targets[j]? = some t →
        ∃ s pairs, tr[j]? = some (t, s) ∧ Measures env.sqrt pairs s ∧
          List.Forall₂ (fun rz yp => cellOf (named a.homogenize tm) t rz.1 = some yp.1 ∧
            (m[j]?).map (fun p => linear p.1 rz.2 p.2) = some yp.2) (rows.zip zs) pairs := by
  obtain ⟨h5, xs, hxs, hsc⟩ := trainScored_ok h
  have hyc := y_cols hc hnt
  obtain ⟨-, hXn, hXc⟩ := X_cols hc hn
  obtain ⟨m, xs', ys, hxs', -, -, rfl⟩ := trainOn_learn h5
  simp only at hxs hsc
  rw [hxs] at hxs'
  cases hxs'
  have hxl : xs.length = rows.length := by
    obtain ⟨-, rfl⟩ := finite_ok hxs
    simp [transform, Table.loc]
  obtain ⟨h6, h7⟩ := scoreTable_ok hsc (by rw [List.length_map, hxl]; exact le_refl _)
  refine ⟨m, xs, rfl, ?_, ?_, ?_⟩
  · obtain ⟨hall, rfl⟩ := finite_ok hxs
    have htr : transform (fit env (e0.X.loc rows)) (e0.X.loc rows) = rows.map (fun r =>
        e0.featureLabels.map (fun n => scaleCell (fitCol env (rows.map (fillCol a.impute
        (fm.rows.filter (fun q => a.sampleThresh ≤ sampleFraction (named a.homogenize fm) e0.featureLabels q))
        ⟨n, cellOf (named a.homogenize fm) n⟩).cell)) ((fillCol a.impute
        (fm.rows.filter (fun q => a.sampleThresh ≤ sampleFraction (named a.homogenize fm) e0.featureLabels q))
        ⟨n, cellOf (named a.homogenize fm) n⟩).cell r))) := by
      show rows.map _ = _
      apply List.map_congr_left
      intro r _
      show (((e0.X.cols).map (fun c => fitCol env (rows.map c.cell))).zip e0.X.cols).map _ = _
      rw [hXc, transform_row]
    rw [htr] at hall ⊢
    rw [List.map_map, List.forall₂_map_right_iff, List.forall₂_same]
    intro r hr
    exact features_of env e0.X rows _ _ _ hXc (fun _ => rfl) hXn r _
      (fun n hn => by rw [cellOf_map hXc (fun _ => rfl) hn]) (hall _ (List.mem_map.mpr ⟨r, hr, rfl⟩))
  · rw [h6]; show e0.y.cols.length = _
    rw [hyc, List.length_map]
  · intro j t hj
    obtain ⟨-, s, pairs, hs1, hm, hp⟩ := h7 j _ (targets_get hyc hj)
    refine ⟨s, pairs, hs1, hm, ?_⟩
    change List.Forall₂ _ (rows.zip (xs.map _)) pairs at hp
    rw [List.zip_map_right, List.forall₂_map_left_iff] at hp
    refine hp.imp ?_
    intro rz yp hh
    refine ⟨hh.1, ?_⟩
    have h2 := hh.2
    simp only [Prod.map, Option.getD_some, List.getElem?_map] at h2
    rw [← h2]
    congr 1
    funext p
    exact (linear_eq p rz.2).symm

/-- C116: the targets of held-out samples do not reach the model: with another target matrix that agrees on
the samples drawn for training, the same model is fitted and makes the same predictions -/
theorem C116_targets_unseen (env : Env Hyper) (a : Args Hyper) (fm tm tm' : Table) (e0 e0' e : Exp Hyper)
    (rows : List Str) (hc : construct env a fm tm = .ok e0) (hc' : construct env a fm tm' = .ok e0')
    (hnt : (named a.homogenize tm).names.Nodup) (hnt' : (named a.homogenize tm').names.Nodup)
    (hsame : ∀ r ∈ rows, ∀ t ∈ a.targets,
      cellOf (named a.homogenize tm) t r = cellOf (named a.homogenize tm') t r)
    (h : trainSubset env e0 rows = .ok e) :
    ∃ e', trainSubset env e0' rows = .ok e' ∧ e'.model = e.model ∧ ∀ X hom, predict e' X hom = predict e X hom := by
  obtain ⟨-, -, ha, -, hl, -, hX, -, -, -, -, -, -, -, -⟩ := construct_ok hc
  obtain ⟨-, -, ha', -, hl', -, hX', -, -, -, -, -, -, -, -⟩ := construct_ok hc'
  have hXX : e0'.X.loc rows = e0.X.loc rows := by rw [hX, hX']; rfl
  have hyy : (e0'.y.loc rows).rows.map (fun r => (e0'.y.loc rows).cols.map (fun c => c.cell r)) =
      (e0.y.loc rows).rows.map (fun r => (e0.y.loc rows).cols.map (fun c => c.cell r)) := by
    show rows.map (fun r => e0'.y.cols.map (fun c => c.cell r)) = rows.map (fun r => e0.y.cols.map (fun c => c.cell r))
    rw [y_cols hc hnt, y_cols hc' hnt']
    apply List.map_congr_left
    intro r hr
    rw [List.map_map, List.map_map]
    apply List.map_congr_left
    intro t ht
    exact (hsame r hr t ht).symm
  unfold trainSubset at h ⊢
  obtain ⟨m, xs, ys, h1, h2, h3, rfl⟩ := trainOn_learn h
  refine ⟨{ e0' with scaler := fit env (e0.X.loc rows), model := some m }, ?_, rfl, ?_⟩
  · rw [← hyy] at h2
    rw [ha] at h3
    unfold trainOn
    rw [hXX]
    simp only [bind, Except.bind, h1, h2, ha', h3]
  · intro X hom
    unfold predict predictFrame
    simp only [ha, ha', hl, hl']

/-! ### beep train (C114, C115) -/

theorem ofList_eq {s : Str} {t : String} : String.ofList s = t ↔ s = t.toList := by
  constructor
  · intro h; rw [← h, String.toList_ofList]
  · intro h; rw [h, String.ofList_toList]

theorem estimator_eq (s : Str) : estimator s = modelOf s := by
  have e : ∀ t : String, (String.ofList s == t) = decide (s = t.toList) := by
    intro t
    rw [Bool.eq_iff_iff, beq_iff_eq, decide_eq_true_iff, ofList_eq]
  unfold estimator modelOf
  simp only [List.lookup_cons, e, List.lookup_nil]
  by_cases h1 : s = "elasticnet".toList
  · simp only [h1, decide_true, if_true]; rfl
  · simp only [h1, decide_false, if_false]
    by_cases h2 : s = "ridge".toList
    · simp only [h2, decide_true, if_true]; rfl
    · simp only [h2, decide_false, if_false]
      by_cases h3 : s = "lasso".toList
      · simp only [h3, decide_true, if_true]; rfl
      · simp only [h3, decide_false, if_false]; rfl

theorem strategy_eq : strategy = imputeOf := by
  funext s
  have e : ∀ t : String, (String.ofList s == t) = decide (s = t.toList) := by
    intro t
    rw [Bool.eq_iff_iff, beq_iff_eq, decide_eq_true_iff, ofList_eq]
  unfold strategy imputeOf
  simp only [List.lookup_cons, e, List.lookup_nil]
  by_cases h1 : s = "median".toList
  · simp only [h1, decide_true, if_true]; rfl
  · simp only [h1, decide_false, if_false]
    by_cases h2 : s = "mean".toList
    · simp only [h2, decide_true, if_true]; rfl
    · simp only [h2, decide_false, if_false]
      by_cases h3 : s = "none".toList
      · simp only [h3, decide_true, if_true]; rfl
      · simp only [h3, decide_false, if_false]; rfl

theorem kwargs_plain {o : TrainOpts} (hp : Plain o) :
    bindArgs o.targets o.model (kwargs o none none) = .ok (requested o none none) := by
  obtain ⟨-, -, -, h4, h5, -⟩ := hp
  unfold kwargs
  rw [h4, h5]
  unfold requested
  rw [h4, h5, estimator_eq, strategy_eq]
  cases o.predictThresh <;> cases o.impute <;> cases o.kfold <;> cases o.maxIter <;> cases o.tol <;>
    cases o.homogenize <;> rfl

theorem alphaGrid_none {o : TrainOpts} (hp : Plain o) :
    alphaGrid o.alphaLower o.alphaUpper o.nAlphas = .ok none := by
  obtain ⟨h1, h2, h3, -⟩ := hp
  rw [h1, h2, h3]; rfl

theorem report_ok {S : Type} {w : World} {ctx : Ctx} {c : S → Content} {st st' : S} {fs fs' : Files Content}
    (h : report w ctx c st fs = (fs', .ok st')) :
    st' = st ∧ (∀ p, ctx.status = some p → fs' p = some (c st)) ∧ (∀ p, ctx.status ≠ some p → fs' p = fs p) := by
  unfold report at h
  split at h
  · rename_i hs
    cases h
    exact ⟨rfl, fun p hp => (by rw [hs] at hp; cases hp), fun _ _ => rfl⟩
  · rename_i q hs
    unfold dump at h
    split at h
    · cases h
    · rename_i heq
      split at heq
      · cases heq
      cases heq
      cases h
      refine ⟨rfl, ?_, ?_⟩
      · intro p hp
        rw [hs] at hp
        cases hp
        simp [Batch.Files.write]
      · intro p hp
        rw [hs] at hp
        simp only [Batch.Files.write]
        rw [if_neg]
        intro e; exact hp (by rw [e])

theorem report_error {S : Type} {w : World} {ctx : Ctx} {c : S → Content} {st : S} {fs fs' : Files Content} {e : Err}
    (h : report w ctx c st fs = (fs', .error e)) : fs' = fs := by
  unfold report at h
  split at h
  · cases h
  · split at h
    · cases h; rfl
    · cases h

/-- what a run of the command that reaches its end did -/
theorem train_ok {w : World} {ctx : Ctx} {o : TrainOpts} {fs fs' : Files Content} {st : TrainStatus}
    (h : TrainCmd.train w ctx o fs = (fs', .ok st)) :
    ∃ alphas l1 cf ct, alphaGrid o.alphaLower o.alphaUpper o.nAlphas = .ok alphas ∧
      l1List w o.l1Ratios = .ok l1 ∧ fs (w.abspath o.featureFile) = some cf ∧
      fs (w.abspath o.targetFile) = some ct ∧ st.features = w.abspath o.featureFile ∧
      st.targets = w.abspath o.targetFile ∧ st.featuresMd5 = w.md5 cf ∧ st.targetsMd5 = w.md5 ct ∧
      (∀ p, ctx.status = some p → fs' p = some (.trainStatus st)) ∧
      ((∃ err, trainBody w o (kwargs o alphas l1) cf ct = .error err ∧ ctx.haltOnError = false ∧
          st.traceback = some err ∧ st.created = false ∧ st.output = none ∧ st.results = none ∧
          ∀ p, ctx.status ≠ some p → fs' p = fs p) ∨
       (∃ e r s, trainBody w o (kwargs o alphas l1) cf ct = .ok (e, r) ∧ asDict e = .ok s ∧
          st.traceback = none ∧ st.created = true ∧ st.output = some (outputPath w ctx o.output) ∧
          st.results = r ∧
          (ctx.status ≠ some (outputPath w ctx o.output) → fs' (outputPath w ctx o.output) = some (.model s)) ∧
          ∀ p, ctx.status ≠ some p → p ≠ outputPath w ctx o.output → fs' p = fs p)) := by
  unfold TrainCmd.train at h
  split at h
  · cases h
  · cases h
  rename_i alphas l1 ha hl
  split at h
  · rename_i cf ct hf ht
    refine ⟨alphas, l1, cf, ct, ha, hl, hf, ht, ?_⟩
    simp only at h
    split at h
    · rename_i e r hb
      unfold saveModel at h
      split at h
      · cases h
      rename_i s hs
      split at h
      · cases h
      rename_i fs1 hd
      obtain ⟨rfl, h1, h2⟩ := report_ok h
      unfold dump at hd
      split at hd
      · cases hd
      cases hd
      refine ⟨rfl, rfl, rfl, rfl, h1, Or.inr ⟨e, r, s, hb, hs, rfl, rfl, rfl, rfl, ?_, ?_⟩⟩
      · intro hp
        rw [h2 _ hp]
        simp [Batch.Files.write]
      · intro p hp hne
        rw [h2 _ hp]
        simp [Batch.Files.write, hne]
    · rename_i err hb
      split at h
      · cases h
      rename_i hh
      obtain ⟨rfl, h1, h2⟩ := report_ok h
      exact ⟨rfl, rfl, rfl, rfl, h1, Or.inl ⟨err, hb, by simpa using hh, rfl, rfl, rfl, rfl, h2⟩⟩
  · cases h

theorem loadMatrix_ok {c : Content} {t : Table} (h : loadMatrix c = .ok t) : c = .matrix t := by
  unfold loadMatrix at h
  split at h
  · cases h; rfl
  · cases h
  · cases h

theorem trainBody_ok {w : World} {o : TrainOpts} {kw : List (String × Val)} {cf ct : Content} {e : Exp Hyper}
    {r : Option Results} (h : trainBody w o kw cf ct = .ok (e, r)) :
    ∃ fm tm a e0, cf = .matrix fm ∧ ct = .matrix tm ∧ bindArgs o.targets o.model kw = .ok a ∧
      construct w.env a fm tm = .ok e0 ∧
      ((o.frac = none ∧ r = none ∧ ∃ errs, trainScored w.env e0 e0.X e0.y = .ok (e, errs)) ∨
       (∃ q tr te, o.frac = some q ∧ r = some ⟨tr, te, q⟩ ∧ trainAndScore w.env w.split q e0 = .ok (e, tr, te))) := by
  unfold trainBody at h
  simp only [bind, Except.bind] at h
  split at h
  · cases h
  rename_i fm hfm
  split at h
  · cases h
  rename_i tm htm
  split at h
  · cases h
  rename_i a ha
  split at h
  · cases h
  rename_i e0 he
  refine ⟨fm, tm, a, e0, loadMatrix_ok hfm, loadMatrix_ok htm, ha, he, ?_⟩
  split at h
  · rename_i q hq
    split at h
    · cases h
    rename_i x hx
    cases h
    exact Or.inr ⟨q, x.2.1, x.2.2, hq, rfl, hx⟩
  · rename_i hq
    split at h
    · cases h
    rename_i x hx
    cases h
    exact Or.inl ⟨hq, rfl, x.2, hx⟩

/-- C114: without the options that do not work, the file written by `beep train` holds the model of the
experiment that the options ask for: made from the two matrices with the values given and the documented
defaults otherwise, trained on all samples or on the fraction asked for.
Missing for the whole property: see `C114_thresholds_violated` and `C114_alphas_violated`. -/
theorem C114_model_partial (w : World) (ctx : Ctx) (o : TrainOpts) (fs fs' : Files Content) (st : TrainStatus)
    (hp : Plain o) (h : TrainCmd.train w ctx o fs = (fs', .ok st)) (hc : st.created = true) :
    ∃ fm tm e0 e s out, fs (w.abspath o.featureFile) = some (.matrix fm) ∧
      fs (w.abspath o.targetFile) = some (.matrix tm) ∧
      construct w.env (requested o none none) fm tm = .ok e0 ∧
      ((o.frac = none ∧ LinearModel.train w.env e0 = .ok e) ∨
       (∃ q rows rest, o.frac = some q ∧ w.split q e0.X.rows = .ok (rows, rest) ∧
          trainSubset w.env e0 rows = .ok e)) ∧
      asDict e = .ok s ∧ st.output = some out ∧ (ctx.status ≠ some out → fs' out = some (.model s)) := by
  obtain ⟨alphas, l1, cf, ct, ha, hl, hf, ht, -, -, -, -, -, hor⟩ := train_ok h
  rw [alphaGrid_none hp] at ha
  cases ha
  rw [hp.2.2.2.2.2] at hl
  cases hl
  rcases hor with ⟨err, -, -, -, h5, -⟩ | ⟨e, r, s, hb, hs, -, -, ho, -, hm, -⟩
  · rw [hc] at h5; cases h5
  obtain ⟨fm, tm, a, e0, rfl, rfl, hba, he0, htr⟩ := trainBody_ok hb
  rw [kwargs_plain hp] at hba
  cases hba
  refine ⟨fm, tm, e0, e, s, _, hf, ht, he0, ?_, hs, ho, hm⟩
  rcases htr with ⟨h1, -, errs, h2⟩ | ⟨q, tr, te, h1, -, h2⟩
  · exact Or.inl ⟨h1, (trainScored_ok h2).1⟩
  · obtain ⟨rows, rest, out, d, h3, h4, -, -⟩ := trainAndScore_ok h2
    exact Or.inr ⟨q, rows, rest, h1, h3, (trainScored_ok h4).1⟩

theorem scoreTable_total {sqrt : Rat → Rat} {y : Table} {pred : List (List Rat)}
    (h1 : ∀ r ∈ y.rows, ∀ c ∈ y.cols, (c.cell r).isSome = true) (h2 : pred.length = y.rows.length)
    (h3 : y.rows ≠ []) (h4 : ∀ l ∈ pred, l.length = y.cols.length) : ∃ out, scoreTable sqrt y pred = .ok out := by
  unfold scoreTable
  have key : ∀ l : List (Col × Nat), (∀ cj ∈ l, cj.1 ∈ y.cols ∧ cj.2 < y.cols.length) →
      ∃ out, l.mapM (fun cj =>
        let ys := y.rows.map cj.1.cell
        if ys.all Option.isSome then
          match scores sqrt (ys.filterMap id) (pred.filterMap (fun l => l[cj.2]?)) with
          | .ok s => Except.ok (cj.1.name, s)
          | .error e => Except.error e
        else .error .valueError) = .ok out := by
    intro l
    induction l with
    | nil => intro _; exact ⟨[], rfl⟩
    | cons cj l ih =>
      intro hl
      obtain ⟨out, ho⟩ := ih (fun x hx => hl x (List.mem_cons_of_mem _ hx))
      obtain ⟨hc, hj⟩ := hl cj List.mem_cons_self
      have hall : (y.rows.map cj.1.cell).all Option.isSome = true := by
        rw [List.all_eq_true]
        intro v hv
        obtain ⟨r, hr, rfl⟩ := List.mem_map.mp hv
        exact h1 r hr _ hc
      have l1 := (forall₂_all y.rows cj.1.cell hall).length_eq
      have l2 : (pred.filterMap (fun l => l[cj.2]?)).length = pred.length := by
        rw [List.length_filterMap_eq_countP, List.countP_eq_length]
        intro l hl
        rw [← h4 l hl] at hj
        simp [List.getElem?_eq_getElem hj]
      have l3 : y.rows.length ≠ 0 := fun e => h3 (List.length_eq_zero_iff.mp e)
      have hsc : ∃ s, scores sqrt ((y.rows.map cj.1.cell).filterMap id) (pred.filterMap (fun l => l[cj.2]?)) = .ok s := by
        unfold scores
        rw [if_neg (by omega)]
        exact ⟨_, rfl⟩
      obtain ⟨s, hs⟩ := hsc
      refine ⟨(cj.1.name, s) :: out, ?_⟩
      rw [List.mapM_cons, ho]
      simp only [hall, if_true, hs]
      rfl
  apply key
  intro cj hcj
  obtain ⟨-, h5, h6⟩ := List.mem_zipIdx hcj
  refine ⟨?_, by omega⟩
  rw [h6]; exact List.getElem_mem _

/-- training on all data succeeds together with its scores -/
theorem trainScored_total {env : Env Hyper} (ho : OnePerTarget env) {a : Args Hyper} {fm tm : Table}
    {e0 e : Exp Hyper} (hc : construct env a fm tm = .ok e0) (h : LinearModel.train env e0 = .ok e) :
    ∃ errs, trainScored env e0 e0.X e0.y = .ok (e, errs) := by
  obtain ⟨-, -, -, -, -, -, -, -, hy, h2, -, -, -, -, -⟩ := construct_ok hc
  unfold LinearModel.train at h
  have h' := h
  obtain ⟨m, xs, ys, h3, h4, h5, rfl⟩ := trainOn_learn h
  obtain ⟨hxall, hxs⟩ := finite_ok h3
  obtain ⟨hall, hys⟩ := finite_ok h4
  have hrows : e0.y.rows = e0.X.rows := by rw [hy]; rfl
  have hne : e0.y.rows ≠ [] := by
    intro e; rw [hrows] at e; rw [e] at h2; simp at h2
  have hm : m.length = e0.y.cols.length := by
    obtain ⟨r, hr⟩ := List.exists_mem_of_ne_nil _ hne
    have hr1 : e0.y.cols.map (fun c => c.cell r) ∈ e0.y.rows.map (fun r => e0.y.cols.map (fun c => c.cell r)) :=
      List.mem_map.mpr ⟨r, hr, rfl⟩
    have h6 := hall _ hr1
    have h7 := (forall₂_all _ _ h6).length_eq
    rw [h7]
    refine (ho _ _ _ _ _ h5 _ ?_).symm
    rw [hys]
    exact List.mem_map.mpr ⟨_, hr1, rfl⟩
  have hsc : ∃ errs, scoreTable env.sqrt e0.y (xs.map (fun x => m.map (fun p => decision p x))) = .ok errs := by
    apply scoreTable_total
    · intro r hr c hcc
      exact List.all_eq_true.mp (hall _ (List.mem_map.mpr ⟨r, hr, rfl⟩)) _ (List.mem_map.mpr ⟨c, hcc, rfl⟩)
    · rw [hxs, List.length_map, List.length_map]
      unfold transform
      rw [List.length_map, hrows]
    · exact hne
    · intro l hl
      obtain ⟨x, -, rfl⟩ := List.mem_map.mp hl
      rw [List.length_map, hm]
  obtain ⟨errs, hs⟩ := hsc
  refine ⟨errs, ?_⟩
  unfold trainScored
  simp only [bind, Except.bind, h', h3, Option.getD_some, hs]

/-- C114: without the options that do not work, a model is written whenever the experiment asked for can be
trained on all its samples and the files can be written.  The estimator is taken to return one linear
function per target. -/
theorem C114_created_partial (w : World) (ho : OnePerTarget w.env) (ctx : Ctx) (o : TrainOpts) (fs : Files Content)
    (hp : Plain o) (hfr : o.frac = none) (fm tm : Table) (e0 e : Exp Hyper)
    (hf : fs (w.abspath o.featureFile) = some (.matrix fm)) (ht : fs (w.abspath o.targetFile) = some (.matrix tm))
    (hc : construct w.env (requested o none none) fm tm = .ok e0) (htr : LinearModel.train w.env e0 = .ok e)
    (hw : ∀ p, w.refuses p = none) :
    ∃ fs' st, TrainCmd.train w ctx o fs = (fs', .ok st) ∧ st.created = true ∧ st.traceback = none := by
  obtain ⟨errs, hs⟩ := trainScored_total ho hc htr
  have hb : trainBody w o (kwargs o none none) (.matrix fm) (.matrix tm) = .ok (e, none) := by
    unfold trainBody
    simp only [bind, Except.bind, loadMatrix, kwargs_plain hp, hc, hfr, hs]
  have hd : ∃ s, asDict e = .ok s := by
    obtain ⟨m, xs, ys, -, -, -, rfl⟩ := trainOn_learn htr
    exact ⟨_, rfl⟩
  obtain ⟨s, hs⟩ := hd
  unfold TrainCmd.train
  rw [alphaGrid_none hp, hp.2.2.2.2.2]
  simp only [l1List, hf, ht, hb, saveModel, hs, dump, hw, report]
  cases ctx.status with
  | none => exact ⟨_, _, rfl, rfl, rfl⟩
  | some p => exact ⟨_, _, rfl, rfl, rfl⟩

theorem bind_unknown {targets : List Str} {model : Str} {kw : List (String × Val)} {n : String} {v : Val}
    (hm : (n, v) ∈ kw) (hn : n ∉ parameters) : bindArgs targets model kw = .error .typeError := by
  unfold bindArgs
  rw [if_pos]
  rw [List.any_eq_true]
  exact ⟨(n, v), hm, by simpa using hn⟩

/-- C114 fails for the thresholds of the training data and for the l1 ratios: whatever their values, the
command never writes a model -/
theorem C114_thresholds_violated (w : World) (ctx : Ctx) (o : TrainOpts) (fs : Files Content)
    (hg : o.featureThresh ≠ none ∨ o.sampleThresh ≠ none ∨ o.l1Ratios ≠ none) :
    (∀ st, (TrainCmd.train w ctx o fs).2 = .ok st → st.created = false ∧ st.traceback ≠ none) ∧
    OnlyChanges fs (TrainCmd.train w ctx o fs).1 [ctx.status] := by
  have hbody : ∀ alphas l1 cf ct, l1List w o.l1Ratios = .ok l1 →
      ∃ err, trainBody w o (kwargs o alphas l1) cf ct = .error err := by
    intro alphas l1 cf ct hl
    have hb : bindArgs o.targets o.model (kwargs o alphas l1) = .error .typeError := by
      rcases hg with hg | hg | hg
      · obtain ⟨q, hq⟩ := Option.ne_none_iff_exists'.mp hg
        apply bind_unknown (n := "train_feature_nan_thresh") (v := .num q) _ (by decide +kernel)
        unfold kwargs; rw [hq]; exact List.mem_filterMap.mpr ⟨("train_feature_nan_thresh", some (.num q)), by simp, rfl⟩
      · obtain ⟨q, hq⟩ := Option.ne_none_iff_exists'.mp hg
        apply bind_unknown (n := "train_sample_nan_thresh") (v := .num q) _ (by decide +kernel)
        unfold kwargs; rw [hq]; exact List.mem_filterMap.mpr ⟨("train_sample_nan_thresh", some (.num q)), by simp, rfl⟩
      · obtain ⟨q, hq⟩ := Option.ne_none_iff_exists'.mp hg
        rw [hq] at hl
        unfold l1List at hl
        simp only at hl
        split at hl
        · rename_i l _
          cases hl
          apply bind_unknown (n := "l1_ratios") (v := .nums l) _ (by decide +kernel)
          unfold kwargs; exact List.mem_filterMap.mpr ⟨("l1_ratios", some (.nums l)), by simp, rfl⟩
        · cases hl
    unfold trainBody
    simp only [bind, Except.bind]
    cases loadMatrix cf with
    | error e => exact ⟨e, rfl⟩
    | ok fm => cases loadMatrix ct with
      | error e => exact ⟨e, rfl⟩
      | ok tm => rw [hb]; exact ⟨_, rfl⟩
  refine ⟨?_, ?_⟩
  · intro st hst
    obtain ⟨alphas, l1, cf, ct, ha, hl, hf, ht, -, -, -, -, -, hor⟩ :=
      train_ok (fs' := (TrainCmd.train w ctx o fs).1) (Prod.ext rfl hst)
    obtain ⟨err, he⟩ := hbody alphas l1 cf ct hl
    rcases hor with ⟨err', -, -, h4, h5, -⟩ | ⟨e, r, s, hb, -⟩
    · exact ⟨h5, by rw [h4]; exact Option.some_ne_none _⟩
    · rw [he] at hb; cases hb
  · intro p hp
    have hp' : ctx.status ≠ some p := fun e => hp (by rw [e]; simp)
    unfold TrainCmd.train
    split
    · rfl
    · rfl
    rename_i alphas l1 ha hl
    split
    · rename_i cf ct _ _
      obtain ⟨err, he⟩ := hbody alphas l1 cf ct hl
      simp only [he]
      split
      · rfl
      · cases hr : report w ctx Content.trainStatus _ fs with
        | mk f r =>
          cases r with
          | error e => rw [report_error hr]
          | ok st => exact (report_ok hr).2.2 p hp'
    · rfl

/-- C114 fails for the grid of alphas: when all three values are given (and none is zero) they have no
effect at all; when only some are, the command ends with a `TypeError` before it does anything -/
theorem C114_alphas_violated (w : World) (ctx : Ctx) (o : TrainOpts) (fs : Files Content) :
    (∀ l u n : Rat, l ≠ 0 → u ≠ 0 → n ≠ 0 →
      TrainCmd.train w ctx { o with alphaLower := some l, alphaUpper := some u, nAlphas := some n } fs =
      TrainCmd.train w ctx { o with alphaLower := none, alphaUpper := none, nAlphas := none } fs) ∧
    (∀ l u n : Option Rat, (∃ x ∈ [l, u, n], ∃ q, x = some q ∧ q ≠ 0) → (∃ x ∈ [l, u, n], x = none ∨ x = some 0) →
      TrainCmd.train w ctx { o with alphaLower := l, alphaUpper := u, nAlphas := n } fs = (fs, .error .typeError)) := by
  refine ⟨?_, ?_⟩
  · intro l u n hl hu hn
    have h1 : alphaGrid (some l) (some u) (some n) = .ok none := by
      unfold alphaGrid
      simp [truthy, hl, hu, hn]
    unfold TrainCmd.train
    simp only [h1]
    rfl
  · intro l u n h1 h2
    have h3 : alphaGrid l u n = .error .typeError := by
      unfold alphaGrid
      have e1 : [l, u, n].any truthy = true := by
        obtain ⟨x, hx, q, rfl, hq⟩ := h1
        exact List.any_eq_true.mpr ⟨_, hx, by simp [truthy, hq]⟩
      have e2 : [l, u, n].all truthy = false := by
        obtain ⟨x, hx, hh⟩ := h2
        rw [List.all_eq_false]
        refine ⟨x, hx, ?_⟩
        rcases hh with rfl | rfl <;> simp [truthy]
      simp only [e1, e2]
      rfl
    unfold TrainCmd.train
    simp only [h3]

/-- C115: the status of a run of `beep train` that reaches its end tells what happened.  It names the two
input files and the hashes of their contents; it reports a model exactly when one was written, and an
exception exactly when none was; test results exactly when they were asked for.  It is in the status file,
the model is in the output file, and no other file changed. -/
theorem C115_status (w : World) (ctx : Ctx) (o : TrainOpts) (fs fs' : Files Content) (st : TrainStatus)
    (h : TrainCmd.train w ctx o fs = (fs', .ok st)) :
    st.features = w.abspath o.featureFile ∧ (fs st.features).map w.md5 = some st.featuresMd5 ∧
    st.targets = w.abspath o.targetFile ∧ (fs st.targets).map w.md5 = some st.targetsMd5 ∧
    (st.created = true ↔ st.output ≠ none) ∧ (st.created = true ↔ st.traceback = none) ∧
    (st.created = true → (st.results ≠ none ↔ o.frac ≠ none)) ∧
    (∀ p, ctx.status = some p → fs' p = some (.trainStatus st)) ∧
    (∀ p, st.output = some p → ctx.status ≠ some p → ∃ s, fs' p = some (.model s)) ∧
    OnlyChanges fs fs' [ctx.status, st.output] := by
  obtain ⟨alphas, l1, cf, ct, ha, hl, hf, ht, e1, e2, e3, e4, h1, hor⟩ := train_ok h
  refine ⟨e1, by rw [e1, hf, e3]; rfl, e2, by rw [e2, ht, e4]; rfl, ?_⟩
  rcases hor with ⟨err, -, -, h4, h5, h6, h7, h8⟩ | ⟨e, r, s, hb, hs, h4, h5, h6, h7, h8, h9⟩
  · refine ⟨by simp [h5, h6], by simp [h4, h5], by simp [h5], h1, by simp [h6], ?_⟩
    intro p hp
    exact h8 p (fun e => hp (by rw [e]; simp))
  · refine ⟨by simp [h5, h6], by simp [h4, h5], ?_, h1, ?_, ?_⟩
    · intro _
      rw [h7]
      obtain ⟨_, _, _, _, -, -, -, -, hor⟩ := trainBody_ok hb
      rcases hor with ⟨h1, h2, -⟩ | ⟨q, tr, te, h1, h2, -⟩
      · simp [h1, h2]
      · simp [h1, h2]
    · intro p hp hst
      rw [h6] at hp
      cases hp
      exact ⟨s, h8 hst⟩
    · intro p hp
      refine h9 p (fun e => hp (by rw [e]; simp)) (fun e => hp (by rw [h6, e]; simp))

/-- C115: when the command ends with an exception, no file but the output has changed, and in particular no
status was written -/
theorem C115_raises (w : World) (ctx : Ctx) (o : TrainOpts) (fs fs' : Files Content) (err : Err)
    (h : TrainCmd.train w ctx o fs = (fs', .error err)) :
    OnlyChanges fs fs' [some (outputPath w ctx o.output)] := by
  intro p hp
  have hne : p ≠ outputPath w ctx o.output := fun e => hp (by rw [e]; simp)
  unfold TrainCmd.train at h
  split at h
  · cases h; rfl
  · cases h; rfl
  split at h
  · simp only at h
    split at h
    · unfold saveModel at h
      split at h
      · cases h; rfl
      split at h
      · cases h; rfl
      rename_i fs1 hd
      rw [report_error h]
      unfold dump at hd
      split at hd
      · cases hd
      cases hd
      simp [Batch.Files.write, hne]
    · split at h
      · cases h; rfl
      rw [report_error h]
  · cases h; rfl

/-- C115 fails when the training errors are looked for: a run that trains on all data reports none, whatever
the errors are -/
theorem C115_errors_violated (w : World) (ctx : Ctx) (o : TrainOpts) (fs fs' : Files Content) (st : TrainStatus)
    (hfr : o.frac = none) (h : TrainCmd.train w ctx o fs = (fs', .ok st)) : st.results = none := by
  obtain ⟨alphas, l1, cf, ct, ha, hl, hf, ht, e1, e2, e3, e4, h1, hor⟩ := train_ok h
  rcases hor with ⟨err, -, -, h4, h5, h6, h7, h8⟩ | ⟨e, r, s, hb, hs, h4, h5, h6, h7, h8, h9⟩
  · exact h7
  · rw [h7]
    obtain ⟨_, _, _, _, -, -, -, -, hor⟩ := trainBody_ok hb
    rcases hor with ⟨h1, h2, -⟩ | ⟨q, tr, te, h1, h2, -⟩
    · exact h2
    · rw [hfr] at h1; cases h1

/-- C115 fails when an input file is missing or the l1 ratios are not numbers: even without
`--halt-on-error` the command ends with an exception and leaves no status -/
theorem C115_missing_violated (w : World) (ctx : Ctx) (o : TrainOpts) (fs : Files Content)
    (h : fs (w.abspath o.featureFile) = none ∨ fs (w.abspath o.targetFile) = none ∨
      ∃ e, l1List w o.l1Ratios = .error e) :
    ∃ err, TrainCmd.train w ctx o fs = (fs, .error err) := by
  unfold TrainCmd.train
  split
  · exact ⟨_, rfl⟩
  · exact ⟨_, rfl⟩
  rename_i alphas l1 ha hl
  split
  · rename_i cf ct hf ht
    rcases h with h | h | ⟨e, h⟩
    · rw [h] at hf; cases hf
    · rw [h] at ht; cases ht
    · rw [h] at hl; cases hl
  · exact ⟨_, rfl⟩

/-! ### beep predict (C117) -/

theorem predictCmd_ok {w : World} {ctx : Ctx} {o : PredictOpts} {fs fs' : Files Content} {st : PredictStatus}
    (h : predictCmd w ctx o fs = (fs', .ok st)) :
    ∃ cm cf, fs (w.abspath o.modelFile) = some cm ∧ fs (w.abspath o.featureFile) = some cf ∧
      st.model = w.abspath o.modelFile ∧ st.features = w.abspath o.featureFile ∧ st.modelMd5 = w.md5 cm ∧
      st.featuresMd5 = w.md5 cf ∧ badName o.output = false ∧
      (∀ p, ctx.status = some p → fs' p = some (.predictStatus st)) ∧
      ((∃ err, predictBody w o cm cf = .error err ∧ ctx.haltOnError = false ∧ st.traceback = some err ∧
          st.created = false ∧ st.output = none ∧ ∀ p, ctx.status ≠ some p → fs' p = fs p) ∨
       (∃ x, predictBody w o cm cf = .ok x ∧ st.traceback = none ∧ st.created = true ∧
          st.output = some (outputPath w ctx o.output) ∧
          (ctx.status ≠ some (outputPath w ctx o.output) →
            fs' (outputPath w ctx o.output) = some (.predictions x.1 x.2)) ∧
          ∀ p, ctx.status ≠ some p → p ≠ outputPath w ctx o.output → fs' p = fs p)) := by
  unfold predictCmd at h
  split at h
  · cases h
  rename_i hbad
  split at h
  · rename_i cm cf hm hf
    refine ⟨cm, cf, hm, hf, ?_⟩
    simp only at h
    split at h
    · rename_i x hb
      split at h
      · cases h
      rename_i fs1 hd
      obtain ⟨rfl, h1, h2⟩ := report_ok h
      unfold dump at hd
      split at hd
      · cases hd
      cases hd
      refine ⟨rfl, rfl, rfl, rfl, by simpa using hbad, h1, Or.inr ⟨x, hb, rfl, rfl, rfl, ?_, ?_⟩⟩
      · intro hp
        rw [h2 _ hp]
        simp [Batch.Files.write]
      · intro p hp hne
        rw [h2 _ hp]
        simp [Batch.Files.write, hne]
    · rename_i err hb
      split at h
      · cases h
      rename_i hh
      obtain ⟨rfl, h1, h2⟩ := report_ok h
      exact ⟨rfl, rfl, rfl, rfl, by simpa using hbad, h1, Or.inl ⟨err, hb, by simpa using hh, rfl, rfl, rfl, h2⟩⟩
  · cases h

theorem predictBody_ok {w : World} {o : PredictOpts} {cm cf : Content} {x : List Str × List (Str × List Rat)}
    (h : predictBody w o cm cf = .ok x) :
    ∃ s X e d, cm = .model s ∧ cf = .matrix X ∧ fromDict w.env s = .ok e ∧ x.1 = e.args.targets ∧
      (predict (overrideThresh o.predictThresh e) X none).2 = .ok (x.2, d) := by
  unfold predictBody at h
  simp only [bind, Except.bind] at h
  split at h
  · cases h
  rename_i X hX
  split at h
  · cases h
  rename_i e he
  split at h
  · cases h
  rename_i r hr
  cases h
  unfold loadModel at he
  split at he
  · rename_i s
    exact ⟨s, X, e, r.2, rfl, loadMatrix_ok hX, he, rfl, hr⟩
  · cases he
  · cases he

/-- C117: the file written by `beep predict` holds the predictions of the saved experiment for the samples of
the feature matrix, with the threshold of the command line in place of its own if one is given.
Missing for the whole property: see `C117_zero_violated`. -/
theorem C117_predictions_partial (w : World) (ctx : Ctx) (o : PredictOpts) (fs fs' : Files Content)
    (st : PredictStatus) (hz : o.predictThresh ≠ some 0) (h : predictCmd w ctx o fs = (fs', .ok st))
    (hc : st.created = true) :
    ∃ s X e out d p, fs (w.abspath o.modelFile) = some (.model s) ∧ fs (w.abspath o.featureFile) = some (.matrix X) ∧
      fromDict w.env s = .ok e ∧
      (predict { e with args := { e.args with predictThresh := o.predictThresh.getD e.args.predictThresh } } X
        none).2 = .ok (out, d) ∧
      st.output = some p ∧ (ctx.status ≠ some p → fs' p = some (.predictions e.args.targets out)) := by
  obtain ⟨cm, cf, hm, hf, -, -, -, -, -, -, hor⟩ := predictCmd_ok h
  rcases hor with ⟨err, -, -, -, h5, -⟩ | ⟨x, hb, -, -, ho, hm', -⟩
  · rw [hc] at h5; cases h5
  obtain ⟨s, X, e, d, rfl, rfl, h1, h2, h3⟩ := predictBody_ok hb
  refine ⟨s, X, e, x.2, d, _, hm, hf, h1, ?_, ho, ?_⟩
  · rw [← h3]
    unfold overrideThresh
    cases hq : o.predictThresh with
    | none => rfl
    | some q =>
      rw [hq] at hz
      simp only
      rw [if_pos (fun e => hz (by rw [e]))]
      rfl
  · rw [← h2]; exact hm'

/-- C117: the status of a run of `beep predict` that reaches its end tells what happened -/
theorem C117_status (w : World) (ctx : Ctx) (o : PredictOpts) (fs fs' : Files Content) (st : PredictStatus)
    (h : predictCmd w ctx o fs = (fs', .ok st)) :
    st.model = w.abspath o.modelFile ∧ (fs st.model).map w.md5 = some st.modelMd5 ∧
    st.features = w.abspath o.featureFile ∧ (fs st.features).map w.md5 = some st.featuresMd5 ∧
    (st.created = true ↔ st.output ≠ none) ∧ (st.created = true ↔ st.traceback = none) ∧
    (∀ p, ctx.status = some p → fs' p = some (.predictStatus st)) ∧
    (∀ p, st.output = some p → ctx.status ≠ some p → ∃ t rows, fs' p = some (.predictions t rows)) ∧
    OnlyChanges fs fs' [ctx.status, st.output] := by
  obtain ⟨cm, cf, hm, hf, e1, e2, e3, e4, -, h1, hor⟩ := predictCmd_ok h
  refine ⟨e1, by rw [e1, hm, e3]; rfl, e2, by rw [e2, hf, e4]; rfl, ?_⟩
  rcases hor with ⟨err, -, -, h4, h5, h6, h8⟩ | ⟨x, hb, h4, h5, h6, h8, h9⟩
  · refine ⟨by simp [h5, h6], by simp [h4, h5], h1, by simp [h6], ?_⟩
    intro p hp
    exact h8 p (fun e => hp (by rw [e]; simp))
  · refine ⟨by simp [h5, h6], by simp [h4, h5], h1, ?_, ?_⟩
    · intro p hp hst
      rw [h6] at hp
      cases hp
      exact ⟨_, _, h8 hst⟩
    · intro p hp
      refine h9 p (fun e => hp (by rw [e]; simp)) (fun e => hp (by rw [h6, e]; simp))

/-- C117: a name for the predictions that does not end in `.json` is refused before anything is done -/
theorem C117_name (w : World) (ctx : Ctx) (o : PredictOpts) (fs : Files Content) (name : Str)
    (hn : o.output = some name) (hne : name ≠ []) (hend : ¬ ∃ stem, name = stem ++ ".json".toList) :
    predictCmd w ctx o fs = (fs, .error .valueError) := by
  unfold predictCmd
  rw [if_pos]
  unfold badName endsJson
  rw [hn]
  simp only [ne_eq, hne, not_false_eq_true, decide_true, Bool.true_and, Bool.not_eq_true']
  rw [Bool.eq_false_iff]
  intro he
  obtain ⟨t, ht⟩ := List.isSuffixOf_iff_suffix.mp he
  exact hend ⟨t, ht.symm⟩

/-- C117 fails for the threshold zero, documented as never dropping a sample: it has no effect at all -/
theorem C117_zero_violated (w : World) (ctx : Ctx) (o : PredictOpts) (fs : Files Content) :
    predictCmd w ctx { o with predictThresh := some 0 } fs = predictCmd w ctx { o with predictThresh := none } fs := rfl

/-- C117: a model made by `beep train` on all data and read back by `beep predict` gives the predictions of the
trained experiment.  Missing: models trained on a fraction, and models some of whose samples lack a target
(C53). -/
theorem C117_chain_partial (w : World) (ctx ctx' : Ctx) (o : TrainOpts) (o' : PredictOpts)
    (fs fs1 fs2 : Files Content) (st : TrainStatus) (st' : PredictStatus) (hp : Plain o) (hfr : o.frac = none)
    (h : TrainCmd.train w ctx o fs = (fs1, .ok st)) (hc : st.created = true) (hs : ctx.status ≠ st.output)
    (hm : st.output = some (w.abspath o'.modelFile)) (ht : o'.predictThresh = none)
    (h' : predictCmd w ctx' o' fs1 = (fs2, .ok st')) (hc' : st'.created = true)
    (fm tm X : Table) (hfm : fs (w.abspath o.featureFile) = some (.matrix fm))
    (htm : fs (w.abspath o.targetFile) = some (.matrix tm)) (hX : fs1 (w.abspath o'.featureFile) = some (.matrix X))
    (hnf : fm.names.Nodup) (hnt : tm.names.Nodup) (hnh : (named (o.homogenize.getD true) tm).names.Nodup)
    (hall : ∀ r ∈ fm.rows, ∀ t ∈ o.targets, Has (named (o.homogenize.getD true) tm) r t) :
    ∃ e0 e out d p, construct w.env (requested o none none) fm tm = .ok e0 ∧ LinearModel.train w.env e0 = .ok e ∧
      (predict e X none).2 = .ok (out, d) ∧ st'.output = some p ∧
      (ctx'.status ≠ some p → fs2 p = some (.predictions o.targets out)) := by
  obtain ⟨fm', tm', e0, e, s, outp, h1, h2, h3, h4, h5, h6, h7⟩ := C114_model_partial w ctx o fs fs1 st hp h hc
  rw [hfm] at h1
  cases h1
  rw [htm] at h2
  cases h2
  rcases h4 with ⟨-, h4⟩ | ⟨q, rows, rest, hq, -⟩
  swap
  · rw [hfr] at hq; cases hq
  obtain ⟨s', X', e', out, d, p, k1, k2, k3, k4, k5, k6⟩ :=
    C117_predictions_partial w ctx' o' fs1 fs2 st' (by rw [ht]; simp) h' hc'
  rw [h6] at hm
  cases hm
  rw [h7 (by rw [← h6]; exact hs)] at k1
  cases k1
  rw [hX] at k2
  cases k2
  obtain ⟨e'', j1, j2⟩ := C53_reload_partial w.env (requested o none none) fm tm e0 e s h3 h4 h5 hnf hnt hnh (Or.inr hall)
  rw [k3] at j1
  cases j1
  rw [ht] at k4
  have hargs : e'.args = requested o none none := by
    have := k3
    unfold fromDict at this
    simp only [bind, Except.bind] at this
    split at this
    · cases this
    rename_i e1 he1
    cases this
    show e1.args = _
    rw [(construct_ok he1).2.2.1]
    unfold asDict at h5
    split at h5
    · cases h5
    cases h5
    obtain ⟨m, xs, ys, -, -, -, rfl⟩ := trainOn_learn h4
    exact (construct_ok h3).2.2.1
  refine ⟨e0, e, out, d, p, h3, h4, ?_, k5, ?_⟩
  · rw [← j2]; exact k4
  · intro hne
    rw [k6 hne, hargs]; rfl

/-! ### Concrete cases -/

/-- the estimator gives every feature the weight 1, for each target -/
def demoHyper : Env Hyper where
  sqrt := fun x => if x = 49 then 7 else demoEnv.sqrt x
  learn := fun _ _ xs ys =>
    if ys.all (fun y => y.length == (ys.headD []).length) then
      .ok ((ys.headD []).map (fun _ => ((xs.headD []).map (fun _ => 1), 0)))
    else .error .valueError

/-- it returns one linear function per target -/
example : OnePerTarget demoHyper := by
  intro h m xs ys f hf y hy
  simp only [demoHyper] at hf
  split at hf
  · rename_i hall
    cases hf
    rw [List.length_map]
    exact beq_iff_eq.mp (List.all_eq_true.mp hall y hy)
  · cases hf

/-- the first half of the samples is drawn for training; two matrices, and new samples to predict -/
def demoWorld : World where
  env := demoHyper
  split := fun _ l => if l.length < 2 then .error .valueError else .ok (l.take (l.length / 2), l.drop (l.length / 2))
  abspath := fun s => s
  md5 := fun c => match c with
    | .matrix t => (toString t.cols.length).toList
    | _ => "x".toList
  float := fun s => if s = "0.5".toList then .ok (1 / 2) else .error .valueError
  refuses := fun _ => none
  defaultName := "d.json".toList

def demoFiles : Files Content := fun p =>
  if p = "f".toList then some (.matrix demoFM) else if p = "t".toList then some (.matrix demoTM)
  else if p = "n".toList then some (.matrix demoNew) else none

def demoTrain : TrainOpts :=
  { featureFile := "f".toList, targetFile := "t".toList, targets := ["y::T".toList], model := "lasso".toList,
    output := some "m.json".toList, kfold := some 3, predictThresh := some (1 / 4) }

def demoCtx : Ctx := { cwd := "/w".toList, status := some "s.json".toList }

def demoPredict : PredictOpts :=
  { modelFile := "m.json".toList, featureFile := "n".toList, output := some "p.json".toList }

/-- the draw of `demoWorld` is a split, its estimator returns one function per target -/
theorem demo_splits : Splits demoWorld.split := by
  intro q l a b h
  unfold demoWorld at h
  simp only at h
  split at h
  · cases h
  rename_i hl
  cases h
  refine ⟨by rw [List.take_append_drop], ?_, ?_⟩
  · intro e
    have := congrArg List.length e
    rw [List.length_take, List.length_nil] at this
    omega
  · intro e
    have := congrArg List.length e
    rw [List.length_drop, List.length_nil] at this
    omega

example : Plain demoTrain := ⟨rfl, rfl, rfl, rfl, rfl, rfl⟩

/-- what a run left: the status, and which of the files it wrote -/
def demoSeen (r : Files Content × Except Err TrainStatus) : Option (Bool × Option Err × Rat × List (Str × List Rat)) :=
  match r.2 with
  | .ok st => match r.1 "m.json".toList with
    | some (.model s) => match (predictCmd demoWorld demoCtx demoPredict r.1).1 "p.json".toList with
      | some (.predictions _ rows) => some (st.created, st.traceback, s.args.hyper.kfold, rows)
      | _ => none
    | _ => none
  | .error _ => none

set_option synthInstance.maxSize 1000 in
/-- a model is trained and saved with the options given, and used for a prediction -/
example : demoSeen (TrainCmd.train demoWorld demoCtx demoTrain demoFiles) =
    some (true, none, 3, [("n1".toList, [3])]) := by decide +kernel

/-- the hypotheses of the theorems about the scores are met: a model is trained on r1 and r2 and scored on
r3 and r4 -/
example : ((construct demoHyper (requested { demoTrain with predictThresh := none } none none) demoFM demoTM >>=
      fun e => trainAndScore demoHyper demoWorld.split (1 / 2) e).toOption.map (fun r => r.2)) =
    some ([("y::T".toList, ⟨17 / 2, 5 / 2, some (-33), 4⟩)],
      [("y::T".toList, ⟨6925 / 98, 107 / 14, some (-13801 / 49), 78 / 7⟩)]) := by decide +kernel

/-- a threshold for the training features stops the command with a `TypeError` in the status -/
example : (match (TrainCmd.train demoWorld demoCtx { demoTrain with featureThresh := some (1 / 2) } demoFiles).2 with
    | .ok st => some (st.created, st.traceback)
    | .error _ => none) = some (false, some .typeError) := by decide +kernel

/-- a feature that r1 lacks -/
def leakFM (v : Rat) : Table := ⟨demoRows, [demoCol "a::F::h" none (some 0) (some 3) (some v)]⟩

/-- the weight is the standardised feature of the first sample -/
def leakEnv : Env Hyper where
  sqrt := fun _ => 1
  learn := fun _ _ xs _ => .ok [(xs.headD [], 0)]

/-- C116 fails for the features of held-out samples: they change the value imputed for a training sample, and
with it the model that is then tested on them -/
theorem C116_leak_violated : ∃ (env : Env Hyper) (a : Args Hyper) (fm fm' tm : Table) (e0 e0' e e' : Exp Hyper)
    (rows : List Str), construct env a fm tm = .ok e0 ∧ construct env a fm' tm = .ok e0' ∧
      (∀ r ∈ rows, ∀ n, cellOf fm n r = cellOf fm' n r) ∧ fm.rows = fm'.rows ∧ fm.names = fm'.names ∧
      trainSubset env e0 rows = .ok e ∧ trainSubset env e0' rows = .ok e' ∧ e.model ≠ e'.model := by
  let a : Args Hyper := { targets := ["y::T".toList], model := .lasso, hyper := {} }
  let rows := ["r1".toList, "r2".toList, "r3".toList]
  let f := fun v => construct leakEnv { a with sampleThresh := 0 } (leakFM v) demoTM
  have key : ((f 1).toOption.bind (fun e => (trainSubset leakEnv e rows).toOption.bind Exp.model),
      (f 2).toOption.bind (fun e => (trainSubset leakEnv e rows).toOption.bind Exp.model)) =
      (some [([-1 / 3], 0)], some [([1 / 3], 0)]) := by decide +kernel
  rw [Prod.mk.injEq] at key
  have ex : ∀ v m, (f v).toOption.bind (fun e => (trainSubset leakEnv e rows).toOption.bind Exp.model) = some m →
      ∃ e0 e, f v = .ok e0 ∧ trainSubset leakEnv e0 rows = .ok e ∧ e.model = some m := by
    intro v m h
    cases h1 : f v with
    | error e => rw [h1] at h; cases h
    | ok e0 =>
      rw [h1] at h
      change (trainSubset leakEnv e0 rows).toOption.bind Exp.model = some m at h
      cases h2 : trainSubset leakEnv e0 rows with
      | error e => rw [h2] at h; cases h
      | ok e => rw [h2] at h; exact ⟨e0, e, rfl, h2, h⟩
  obtain ⟨e0, e, h1, h2, h3⟩ := ex 1 _ key.1
  obtain ⟨e0', e', h1', h2', h3'⟩ := ex 2 _ key.2
  refine ⟨leakEnv, { a with sampleThresh := 0 }, leakFM 1, leakFM 2, demoTM, e0, e0', e, e', rows, h1, h1', ?_, rfl, rfl,
    h2, h2', ?_⟩
  · intro r hr n
    have hcell : ∀ v, cellOf (leakFM v) n r = if "a::F::h".toList = n then
        (demoCol "a::F::h" none (some 0) (some 3) (some v)).cell r else none := by
      intro v
      unfold cellOf leakFM
      by_cases hn : "a::F::h".toList = n
      · subst hn; rfl
      · rw [if_neg hn, List.find?_cons_of_neg (by simpa [demoCol] using hn)]
        rfl
    rw [hcell, hcell]
    split
    · simp only [rows, List.mem_cons, List.not_mem_nil, or_false] at hr
      rcases hr with rfl | rfl | rfl <;> decide +kernel
    · rfl
  · rw [h3, h3']
    decide +kernel

/-- C117: the threshold zero matters.  The sample n2 lacks both features; with a threshold of zero no sample
would be dropped, but the command predicts only n1. -/
example : (match (predictCmd demoWorld demoCtx { demoPredict with predictThresh := some 0 }
      (TrainCmd.train demoWorld demoCtx demoTrain demoFiles).1).1 "p.json".toList with
    | some (.predictions _ rows) => some (rows.map Prod.fst)
    | _ => none) = some ["n1".toList] := by decide +kernel

end Beep.Props.TrainCmd
