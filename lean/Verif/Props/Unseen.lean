import Verif.Props.Splitter
/-
C172: what the training sets of a splitter show of the other samples.
-/
namespace Beep.Props.Unseen
open Beep Pandas Text Table Splitter Spec.Splitter Proof.Table Proof.Splitter Props.Splitter

/-- the columns looked at -/
def looked (a : Args) : List Str := a.features ++ a.splitCols.getD [] ++ a.exclusion.getD []

/-- a column of the imputed frame -/
def filledCol (a : Args) (m : Table) (n : Str) : Col :=
  fillCol a.impute (sampled a m).rows
    (if n ∈ a.exclusion.getD [] then ⟨n, fun r => some ((cellOf m n r).getD 0)⟩ else ⟨n, cellOf m n⟩)

theorem filledCol_name (a : Args) (m : Table) (n : Str) : (filledCol a m n).name = n := by
  unfold filledCol
  rw [fillCol_name]
  split <;> rfl

theorem filled_cols {a : Args} {m : Table} (hn : m.names.Nodup) (h : ∀ n ∈ looked a, n ∈ m.names) :
    (filled a m).cols = ((looked a).filter (enough m a.featThresh)).map (filledCol a m) := by
  unfold filled fillFalse
  simp only [sampled_cols]
  rw [kept_cols hn h, List.map_map, List.map_map]
  rfl

theorem has_eq {m m' : Table} (h : SameGaps m m') (n r : Str) : (cellOf m n r).isSome = (cellOf m' n r).isSome := by
  rw [Bool.eq_iff_iff]
  exact h.2.2 r n

theorem enough_eq {m m' : Table} (h : SameGaps m m') (thr : Rat) : enough m thr = enough m' thr := by
  funext n
  unfold enough
  simp only [h.1, has_eq h]

theorem sampled_eq {a : Args} {m m' : Table} (h : SameGaps m m') (hn : m.names.Nodup)
    (hin : ∀ n ∈ looked a, n ∈ m.names) : (sampled a m).rows = (sampled a m').rows := by
  have hn' : m'.names.Nodup := h.2.1 ▸ hn
  have hin' : ∀ n ∈ looked a, n ∈ m'.names := h.2.1 ▸ hin
  unfold sampled Table.dropRows colsWith
  simp only
  rw [kept_cols hn hin, kept_cols hn' hin', enough_eq h]
  simp only [List.length_map]
  have : (kept a m).rows = (kept a m').rows := h.1
  rw [this]
  apply List.filter_congr
  intro r _
  simp only [List.filter_map, List.length_map, Function.comp_def, has_eq h]

/-- a column that is the same in both matrices is filled in the same way -/
theorem filledCol_eq {a : Args} {m m' : Table} (h : SameGaps m m') (hn : m.names.Nodup)
    (hin : ∀ n ∈ looked a, n ∈ m.names) {n : Str} (hc : SameColumn m m' n) : filledCol a m n = filledCol a m' n := by
  have : cellOf m n = cellOf m' n := funext hc
  unfold filledCol
  rw [sampled_eq h hn hin, this]

/-- the columns of the given name in the imputed frame -/
theorem filled_filter {a : Args} {m : Table} (hn : m.names.Nodup) (hin : ∀ n ∈ looked a, n ∈ m.names) (n : Str) :
    (filled a m).cols.filter (fun c => c.name = n) =
      (((looked a).filter (enough m a.featThresh)).filter (fun k => k = n)).map (filledCol a m) := by
  rw [filled_cols hn hin, List.filter_map]
  congr 1
  apply List.filter_congr
  intro k _
  simp only [Function.comp_apply, filledCol_name]

theorem filter_eq_of {a : Args} {m m' : Table} (h : SameGaps m m') (hn : m.names.Nodup)
    (hin : ∀ n ∈ looked a, n ∈ m.names) {n : Str} (hc : SameColumn m m' n) :
    (filled a m).cols.filter (fun c => c.name = n) = (filled a m').cols.filter (fun c => c.name = n) := by
  rw [filled_filter hn hin, filled_filter (h.2.1 ▸ hn) (h.2.1 ▸ hin), enough_eq h]
  apply List.map_congr_left
  intro k hk
  have : k = n := by simpa using (List.mem_filter.mp hk).2
  rw [this]
  exact filledCol_eq h hn hin hc

theorem group_eq {env : Env} {a : Args} {m m' : Table} (h : SameGaps m m') (hn : m.names.Nodup)
    (hin : ∀ n ∈ looked a, n ∈ m.names) {l : List Str} (hc : ∀ n ∈ l, SameColumn m m' n) :
    groupOf env (filled a m) l = groupOf env (filled a m') l := by
  funext r
  unfold groupOf
  congr 1
  apply List.map_congr_left
  intro n hnl
  unfold cellText
  rw [filter_eq_of h hn hin (hc n hnl)]

theorem included_eq {a : Args} {m m' : Table} (h : SameGaps m m') (hn : m.names.Nodup)
    (hin : ∀ n ∈ looked a, n ∈ m.names) {l : List Str} (hc : ∀ n ∈ l, SameColumn m m' n) :
    included l (filled a m) = included l (filled a m') := by
  funext r
  unfold included
  rw [Bool.eq_iff_iff, List.all_eq_true, List.all_eq_true]
  constructor <;> intro hh n hnl
  · rw [← filter_eq_of h hn hin (hc n hnl)]; exact hh n hnl
  · rw [filter_eq_of h hn hin (hc n hnl)]; exact hh n hnl

/-- what two constructors have in common -/
theorem constructed {env : Env} {a : Args} {m m' : Table} {s s' : Splitter} (h : construct env a m = .ok s)
    (h' : construct env a m' = .ok s') (hn : s.matrix.names.Nodup) (hg : SameGaps s.matrix s'.matrix)
    (hc : ∀ n ∈ a.splitCols.getD [] ++ a.exclusion.getD [], SameColumn s.matrix s'.matrix n) :
    s.X.rows = s'.X.rows ∧ s.grouping = s'.grouping ∧ s.featureLabels = s'.featureLabels ∧
    ∃ L : List Str, s.X.cols = L.map (filledCol a s.matrix) ∧ s'.X.cols = L.map (filledCol a s'.matrix) := by
  have hn' : s'.matrix.names.Nodup := hg.2.1 ▸ hn
  obtain ⟨-, -, h3, h4, -⟩ := construct_ok h
  obtain ⟨-, -, h3', h4', -⟩ := construct_ok h'
  obtain ⟨hmiss, hgr, -, -, -, -, -, hX, -, hrow, -⟩ := clean_ok h3
  obtain ⟨hmiss', hgr', -, -, -, -, -, hX', -, hrow', -⟩ := clean_ok h3'
  have hin : ∀ n ∈ looked a, n ∈ s.matrix.names := by
    intro k hk
    apply missing_nil hmiss
    unfold looked at hk
    simp only [List.append_assoc, List.mem_append] at hk ⊢
    tauto
  have ht : ∀ n ∈ a.targets, n ∈ s.matrix.names := by
    intro k hk
    apply missing_nil hmiss
    simp only [List.append_assoc, List.mem_append]
    tauto
  have hin' : ∀ n ∈ looked a, n ∈ s'.matrix.names := hg.2.1 ▸ hin
  have ht' : ∀ n ∈ a.targets, n ∈ s'.matrix.names := hg.2.1 ▸ ht
  have hgrp : s.grouping = s'.grouping := by
    rw [hgr, hgr']
    exact group_eq hg hn hin (fun n hnl => hc n (List.mem_append_left _ hnl))
  have hrows : (filled a s.matrix).rows = (filled a s'.matrix).rows := sampled_eq hg hn hin
  have hpass : passes a s.grouping (filled a s.matrix) = passes a s'.grouping (filled a s'.matrix) := by
    funext r
    unfold passes
    cases he : a.exclusion with
    | none => rfl
    | some excl =>
      have := included_eq hg hn hin (l := excl) (fun n hnl => hc n (List.mem_append_right _ (by rw [he]; exact hnl)))
      simp only [this, hgrp, hrows]
  have hhas : hasTargets a s.matrix = hasTargets a s'.matrix := by
    funext r
    unfold hasTargets
    rw [select_cols hn ht, select_cols hn' ht', List.all_map, List.all_map]
    simp only [Function.comp_def, has_eq hg]
  have ec : s.X.cols = (filled a s.matrix).cols := by rw [hX]
  have ec' : s'.X.cols = (filled a s'.matrix).cols := by rw [hX']
  refine ⟨?_, hgrp, ?_, (looked a).filter (enough s.matrix a.featThresh), ?_, ?_⟩
  · rw [hrow, hrow', hrows, hpass, hhas]
  · have hnm : s.X.names = s'.X.names := by
      unfold Table.names
      rw [ec, ec', filled_cols hn hin, filled_cols hn' hin', enough_eq hg, List.map_map, List.map_map]
      apply List.map_congr_left
      intro n _
      simp only [Function.comp_apply, filledCol_name]
    rw [h4, h4', hnm]
  · rw [ec, filled_cols hn hin]
  · rw [ec', filled_cols hn' hin', enough_eq hg]

/-- frames whose columns are made alike look the same where the columns agree -/
theorem sees_eq {t t' : Table} {L : List Str} {f f' : Str → Col} (hr : t.rows = t'.rows) (hc : t.cols = L.map f)
    (hc' : t'.cols = L.map f') (hf : ∀ n ∈ L, (f n).name = (f' n).name ∧ ∀ r ∈ t.rows, (f n).cell r = (f' n).cell r) :
    sees t = sees t' := by
  unfold sees Table.names Table.body
  have e1 : t.cols.map Col.name = t'.cols.map Col.name := by
    rw [hc, hc', List.map_map, List.map_map]
    exact List.map_congr_left (fun n hn => (hf n hn).1)
  have e2 : t.rows.map (fun r => (r, t.cols.map (fun c => c.cell r))) =
      t'.rows.map (fun r => (r, t'.cols.map (fun c => c.cell r))) := by
    rw [← hr]
    apply List.map_congr_left
    intro r hrr
    rw [hc, hc', List.map_map, List.map_map]
    congr 1
    exact List.map_congr_left (fun n hn => (hf n hn).2 r hrr)
  rw [e1, e2, hr]

/-- the selected columns -/
theorem select_map {t : Table} {L : List Str} {f : Str → Col} (hf : ∀ n, (f n).name = n) (hc : t.cols = L.map f)
    (l : List Str) : (t.select l).cols = (l.flatMap (fun n => L.filter (fun k => k = n))).map f := by
  unfold Table.select
  simp only
  rw [List.map_flatMap, hc]
  congr 1
  funext n
  rw [List.filter_map]
  congr 1
  apply List.filter_congr
  intro k _
  simp only [Function.comp_apply, hf]

/-- the samples of the datasets are determined by the samples, groups and settings -/
theorem split_rows {env : Env} {s s' t t' : Splitter} (ha : s.args = s'.args) (hs : split env s = .ok t)
    (hs' : split env s' = .ok t') (hr : s.X.rows = s'.X.rows) (hy : s.y.rows = s.X.rows) (hy' : s'.y.rows = s'.X.rows)
    (hg : s.grouping = s'.grouping) (k : Nat) (d d' : Dataset) (hd : t.datasets[k]? = some d)
    (hd' : t'.datasets[k]? = some d') :
    d.trainX.rows = d'.trainX.rows ∧ d.trainY.rows = d'.trainY.rows := by
  unfold split at hs hs'
  rw [← ha] at hs'
  split at hs
  · rename_i e
    rw [e] at hs'
    simp only [bind, Except.bind, ← hr] at hs hs'
    split at hs
    · cases hs
    rename_i fs hfs
    rw [hfs] at hs'
    cases hs
    cases hs'
    simp only [List.getElem?_map, Option.map_eq_some_iff] at hd hd'
    obtain ⟨f, hf, rfl⟩ := hd
    obtain ⟨f', hf', rfl⟩ := hd'
    rw [hf] at hf'
    cases hf'
    constructor
    · show f.1.filterMap (fun i => s.X.rows[i]?) = f.1.filterMap (fun i => s'.X.rows[i]?)
      rw [hr]
    · show f.1.filterMap (fun i => s.y.rows[i]?) = f.1.filterMap (fun i => s'.y.rows[i]?)
      rw [hy, hy', hr]
  · rename_i l e
    rw [e] at hs'
    simp only [bind, Except.bind, ← hr, ← hg] at hs hs'
    split at hs
    · cases hs
    rename_i fs hfs
    rw [hfs] at hs'
    cases hs
    cases hs'
    simp only [List.getElem?_map, Option.map_eq_some_iff] at hd hd'
    obtain ⟨f, hf, rfl⟩ := hd
    obtain ⟨f', hf', rfl⟩ := hd'
    rw [hf] at hf'
    cases hf'
    exact ⟨rfl, rfl⟩

/-- C172: two matrices with gaps in the same places and the same split and exclusion columns give the
same training set, if they agree on its samples and no value of these samples is imputed.  So nothing
of the test samples is seen.  Missing for the whole property: imputed values (`C172_imputed_violated`)
and the gaps themselves (`C172_gaps_violated`). -/
theorem C172_unseen_partial (env : Env) (a : Args) (m m' : Table) (s s' t t' : Splitter)
    (h : construct env a m = .ok s) (h' : construct env a m' = .ok s') (hs : split env s = .ok t)
    (hs' : split env s' = .ok t') (hn : s.matrix.names.Nodup) (hg : SameGaps s.matrix s'.matrix)
    (hc : ∀ n ∈ a.splitCols.getD [] ++ a.exclusion.getD [], SameColumn s.matrix s'.matrix n)
    (k : Nat) (d d' : Dataset) (hd : t.datasets[k]? = some d) (hd' : t'.datasets[k]? = some d')
    (hsame : ∀ r ∈ d.trainX.rows, ∀ n, cellOf s.matrix n r = cellOf s'.matrix n r)
    (hfull : a.impute = .none ∨ ∀ r ∈ d.trainX.rows, ∀ n ∈ s.featureLabels, Has s.matrix r n) :
    sees d.trainX = sees d'.trainX ∧ sees d.trainY = sees d'.trainY := by
  obtain ⟨hr, hgr, hfl, L, hL, hL'⟩ := constructed h h' hn hg hc
  have hn' : s'.matrix.names.Nodup := hg.2.1 ▸ hn
  obtain ⟨-, ha, h3, -⟩ := construct_ok h
  obtain ⟨-, ha', h3', -⟩ := construct_ok h'
  obtain ⟨hmiss, -, -, -, -, -, -, -, hy, -, -⟩ := clean_ok h3
  obtain ⟨hmiss', -, -, -, -, -, -, -, hy', -, -⟩ := clean_ok h3'
  obtain ⟨hrx, hry⟩ := split_rows (ha.trans ha'.symm) hs hs' hr (construct_rows h).2 (construct_rows h').2 hgr k d d' hd hd'
  have hcell := C48_cells env s t hs d (List.mem_of_getElem? hd)
  have hcell' := C48_cells env s' t' hs' d' (List.mem_of_getElem? hd')
  have hyr : d.trainY.rows = d.trainX.rows := by
    unfold split at hs
    split at hs
    all_goals
      simp only [bind, Except.bind] at hs
      split at hs
      · cases hs
      rename_i fs hfs
      cases hs
      simp only [List.getElem?_map, Option.map_eq_some_iff] at hd
      obtain ⟨f, hf, rfl⟩ := hd
    · show f.1.filterMap (fun i => s.y.rows[i]?) = f.1.filterMap (fun i => s.X.rows[i]?)
      rw [(construct_rows h).2]
    · rfl
  constructor
  · refine sees_eq (L := s.featureLabels.flatMap (fun n => L.filter (fun k => k = n))) hrx
      (hcell.1.trans (select_map (filledCol_name a _) hL _))
      (hcell'.1.trans (by rw [← hfl]; exact select_map (filledCol_name a _) hL' _)) ?_
    intro n hnL
    refine ⟨by rw [filledCol_name, filledCol_name], fun r hrr => ?_⟩
    have hnf : n ∈ s.featureLabels := by
      obtain ⟨j, hj, hm⟩ := List.mem_flatMap.mp hnL
      have : n = j := by simpa using (List.mem_filter.mp hm).2
      rw [this]; exact hj
    have e := hsame r hrr n
    have hcols : ∀ M : Table, ((if n ∈ a.exclusion.getD [] then (⟨n, fun r => some ((cellOf M n r).getD 0)⟩ : Col)
        else ⟨n, cellOf M n⟩)).cell r = if n ∈ a.exclusion.getD [] then some ((cellOf M n r).getD 0) else cellOf M n r := by
      intro M; split <;> rfl
    unfold filledCol fillCol
    simp only [hcols, e]
    rcases hfull with hi | hf
    · rw [hi]; rfl
    · have hv := hf r hrr n hnf
      unfold Has at hv
      rw [e] at hv
      obtain ⟨v, hv⟩ := Option.isSome_iff_exists.mp hv
      rw [hv]
      split <;> rename_i hx
      · rfl
      · split at hx <;> cases hx
  · have ht : ∀ n ∈ a.targets, n ∈ s.matrix.names := by
      intro k hk
      apply missing_nil hmiss
      simp only [List.append_assoc, List.mem_append]
      tauto
    refine sees_eq (L := a.targets) hry (hcell.2.2.1.trans (by rw [hy]; exact select_cols hn ht))
      (hcell'.2.2.1.trans (by rw [hy']; exact select_cols hn' (hg.2.1 ▸ ht))) ?_
    intro n _
    exact ⟨rfl, fun r hrr => hsame r (by rw [← hyr]; exact hrr) n⟩

/-! ### failures and non-vacuity -/

set_option synthInstance.maxSize 1000

/-- two features and a target; without shuffling the first training set is `r3`, `r4` -/
def args : Args := { features := ["a".toList, "b".toList], targets := ["y".toList], nSplits := 2, homogenize := false }

/-- a matrix with the given values of the feature `a` -/
def matrix (a1 a2 a3 a4 : Option Rat) : Table :=
  ⟨demoRows, [demoCol "a" a1 a2 a3 a4, demoCol "b" (some 1) (some 1) (some 1) (some 1),
    demoCol "y" (some 1) (some 2) (some 3) (some 4)]⟩

/-- the first training set as the user sees it -/
def first (m : Table) : Option (List Str × List Str × List (Str × List (Option Rat))) :=
  match construct demoEnv args m with
  | .error _ => none
  | .ok s => match split demoEnv s with
    | .error _ => none
    | .ok t => t.datasets[0]?.map (fun d => sees d.trainX)

theorem first_ok {m : Table} {x} (h : first m = some x) :
    ∃ s t d, construct demoEnv args m = .ok s ∧ split demoEnv s = .ok t ∧ t.datasets[0]? = some d ∧ sees d.trainX = x := by
  unfold first at h
  split at h
  · cases h
  rename_i s hs
  split at h
  · cases h
  rename_i t ht
  rw [Option.map_eq_some_iff] at h
  obtain ⟨d, hd, e⟩ := h
  exact ⟨s, t, d, hs, ht, hd, e⟩

theorem matrix_cell (a1 a2 a3 a4 b1 b2 b3 b4 : Option Rat) (n r : Str) (h : n = "a".toList →
    (demoCol "a" a1 a2 a3 a4).cell r = (demoCol "a" b1 b2 b3 b4).cell r) :
    cellOf (matrix a1 a2 a3 a4) n r = cellOf (matrix b1 b2 b3 b4) n r := by
  by_cases e : n = "a".toList
  · subst e
    exact h rfl
  · unfold cellOf matrix
    have e' : ¬ ("a".toList = n) := fun h => e h.symm
    simp only [demoCol, List.find?_cons, e', decide_false]

theorem same_gaps : SameGaps (matrix (some 5) (some 6) none (some 8)) (matrix (some 1) (some 2) none (some 8)) := by
  refine ⟨rfl, rfl, fun r n => ?_⟩
  unfold Has
  by_cases e : n = "a".toList
  · subst e
    show ((demoCol "a" (some 5) (some 6) none (some 8)).cell r).isSome = true ↔
      ((demoCol "a" (some 1) (some 2) none (some 8)).cell r).isSome = true
    unfold demoCol
    simp only
    split_ifs <;> simp
  · rw [matrix_cell _ _ _ _ (some 1) (some 2) none (some 8) n r (fun h => absurd h e)]

theorem agree_at {a1 a2 b1 b2 a3 a4 : Option Rat} {r : Str} (hr : r = "r3".toList ∨ r = "r4".toList) (n : Str) :
    cellOf (matrix a1 a2 a3 a4) n r = cellOf (matrix b1 b2 a3 a4) n r := by
  apply matrix_cell
  intro _
  rcases hr with rfl | rfl <;> rfl

/-- C172 fails: a missing value of a training sample is filled from all samples.  The two matrices
agree on the training samples and have gaps in the same places, and the training sets differ. -/
theorem C172_imputed_violated : ∃ (env : Env) (a : Args) (m m' : Table) (s s' t t' : Splitter) (d d' : Dataset),
    construct env a m = .ok s ∧ construct env a m' = .ok s' ∧ split env s = .ok t ∧ split env s' = .ok t' ∧
    SameGaps m m' ∧ t.datasets[0]? = some d ∧ t'.datasets[0]? = some d' ∧ d.trainX.rows = d'.trainX.rows ∧
    (∀ r ∈ d.trainX.rows, ∀ n, cellOf m n r = cellOf m' n r) ∧ sees d.trainX ≠ sees d'.trainX := by
  have k1 : first (matrix (some 5) (some 6) none (some 8)) = some
      (["r3".toList, "r4".toList], ["a".toList, "b".toList],
        [("r3".toList, [some 6, some 1]), ("r4".toList, [some 8, some 1])]) := by decide +kernel
  have k2 : first (matrix (some 1) (some 2) none (some 8)) = some
      (["r3".toList, "r4".toList], ["a".toList, "b".toList],
        [("r3".toList, [some 2, some 1]), ("r4".toList, [some 8, some 1])]) := by decide +kernel
  obtain ⟨s, t, d, h1, h2, h3, h4⟩ := first_ok k1
  obtain ⟨s', t', d', h1', h2', h3', h4'⟩ := first_ok k2
  have r1 : d.trainX.rows = ["r3".toList, "r4".toList] := congrArg Prod.fst h4
  have r2 : d'.trainX.rows = ["r3".toList, "r4".toList] := congrArg Prod.fst h4'
  refine ⟨demoEnv, args, _, _, s, s', t, t', d, d', h1, h1', h2, h2', same_gaps, h3, h3', r1.trans r2.symm, ?_, ?_⟩
  · intro r hr n
    rw [r1] at hr
    exact agree_at (by simpa using hr) n
  · rw [h4, h4']
    decide +kernel

/-- C172 fails: whether the training set has a feature depends on the test samples.  The two matrices
agree on the training samples, where nothing is missing, and one training set lacks a feature. -/
theorem C172_gaps_violated : ∃ (env : Env) (a : Args) (m m' : Table) (s s' t t' : Splitter) (d d' : Dataset),
    construct env a m = .ok s ∧ construct env a m' = .ok s' ∧ split env s = .ok t ∧ split env s' = .ok t' ∧
    m.rows = m'.rows ∧ m.names = m'.names ∧ t.datasets[0]? = some d ∧ t'.datasets[0]? = some d' ∧
    d.trainX.rows = d'.trainX.rows ∧ (∀ r ∈ d.trainX.rows, ∀ n, cellOf m n r = cellOf m' n r) ∧
    (∀ r ∈ d.trainX.rows, ∀ n ∈ a.features, Has m r n) ∧ d.trainX.names ≠ d'.trainX.names := by
  have k1 : first (matrix (some 5) (some 6) (some 7) (some 8)) = some
      (["r3".toList, "r4".toList], ["a".toList, "b".toList],
        [("r3".toList, [some 7, some 1]), ("r4".toList, [some 8, some 1])]) := by decide +kernel
  have k2 : first (matrix none none (some 7) (some 8)) = some
      (["r3".toList, "r4".toList], ["b".toList],
        [("r3".toList, [some 1]), ("r4".toList, [some 1])]) := by decide +kernel
  obtain ⟨s, t, d, h1, h2, h3, h4⟩ := first_ok k1
  obtain ⟨s', t', d', h1', h2', h3', h4'⟩ := first_ok k2
  have r1 : d.trainX.rows = ["r3".toList, "r4".toList] := congrArg Prod.fst h4
  have r2 : d'.trainX.rows = ["r3".toList, "r4".toList] := congrArg Prod.fst h4'
  have n1 : d.trainX.names = ["a".toList, "b".toList] := congrArg (fun x => x.2.1) h4
  have n2 : d'.trainX.names = ["b".toList] := congrArg (fun x => x.2.1) h4'
  refine ⟨demoEnv, args, _, _, s, s', t, t', d, d', h1, h1', h2, h2', rfl, rfl, h3, h3', r1.trans r2.symm, ?_, ?_, ?_⟩
  · intro r hr n
    rw [r1] at hr
    exact agree_at (by simpa using hr) n
  · rw [r1]
    decide +kernel
  · rw [n1, n2]
    decide +kernel

/-- the hypotheses of `C172_unseen_partial` are met by matrices that differ in the test samples -/
example : ∃ (s s' t t' : Splitter) (d d' : Dataset),
    construct demoEnv args (matrix (some 5) (some 6) (some 7) (some 8)) = .ok s ∧
    construct demoEnv args (matrix (some 1) (some 2) (some 7) (some 8)) = .ok s' ∧
    split demoEnv s = .ok t ∧ split demoEnv s' = .ok t' ∧ t.datasets[0]? = some d ∧ t'.datasets[0]? = some d' ∧
    (matrix (some 5) (some 6) (some 7) (some 8)).names.Nodup ∧
    sees d.trainX = sees d'.trainX ∧ d.trainX.rows = ["r3".toList, "r4".toList] ∧ s.featureLabels.length = 2 := by
  have k1 : first (matrix (some 5) (some 6) (some 7) (some 8)) = some
      (["r3".toList, "r4".toList], ["a".toList, "b".toList],
        [("r3".toList, [some 7, some 1]), ("r4".toList, [some 8, some 1])]) := by decide +kernel
  have k2 : first (matrix (some 1) (some 2) (some 7) (some 8)) = some
      (["r3".toList, "r4".toList], ["a".toList, "b".toList],
        [("r3".toList, [some 7, some 1]), ("r4".toList, [some 8, some 1])]) := by decide +kernel
  have k3 : (construct demoEnv args (matrix (some 5) (some 6) (some 7) (some 8))).map
      (fun s => s.featureLabels.length) = .ok 2 := by decide +kernel
  obtain ⟨s, t, d, h1, h2, h3, h4⟩ := first_ok k1
  obtain ⟨s', t', d', h1', h2', h3', h4'⟩ := first_ok k2
  rw [h1] at k3
  injection k3 with k3
  exact ⟨s, s', t, t', d, d', h1, h1', h2, h2', h3, h3', by decide +kernel, h4.trans h4'.symm, congrArg Prod.fst h4, k3⟩

end Beep.Props.Unseen
