import Verif.Proof.Splitter
/-
Theorems about train/test splits: C48-C50.
-/
namespace Beep.Props.Splitter
open Beep Pandas Text Table Splitter Spec.Splitter Proof.Table Proof.Splitter

/-! ### Splits (C48) -/

/-- C48: as many datasets as asked for; features and targets of the same samples in the same order;
train and test disjoint and together everything; every sample in exactly one test set -/
theorem C48_split (env : Env) (henv : Shuffles env) (a : Args) (m : Table) (hm : m.rows.Nodup)
    (s t : Splitter) (h : construct env a m = .ok s) (hs : split env s = .ok t) :
    Leakless s.X.rows a.nSplits t.datasets := by
  obtain ⟨hsub, hy⟩ := construct_rows h
  have hnd : s.X.rows.Nodup := hm.sublist hsub
  obtain ⟨-, harg, -⟩ := construct_ok h
  unfold split at hs
  split at hs
  · simp only [bind, Except.bind] at hs
    split at hs
    · cases hs
    rename_i fs hfs
    cases hs
    obtain ⟨h2, hkn, hlen, hform, hone⟩ := kfold_ok (henv _ _) hfs
    rw [harg] at hlen hone
    refine ⟨by simpa using hlen, ?_, ?_⟩
    · intro d hd
      obtain ⟨f, hf, rfl⟩ := List.mem_map.mp hd
      obtain ⟨c, h1, h2⟩ := hform f hf
      simp only [Table.iloc, Table.select]
      rw [hy, h1, h2]
      refine ⟨rfl, rfl, hnd.sublist (select_sublist _ _), hnd.sublist (select_sublist _ _), ?_, ?_⟩
      · rintro r ⟨hr1, hr2⟩
        have hr := (select_sublist _ _).subset hr1
        obtain ⟨i, hi⟩ := List.getElem?_of_mem hr
        rw [mem_select _ hnd _ i r hi] at hr1 hr2
        simp_all
      · intro r
        constructor
        · intro hr
          obtain ⟨i, hi⟩ := List.getElem?_of_mem hr
          rw [mem_select _ hnd _ i r hi, mem_select _ hnd _ i r hi]
          cases c.contains i <;> simp
        · rintro (hr | hr)
          · exact (select_sublist _ _).subset hr
          · exact (select_sublist _ _).subset hr
    · intro r hr
      obtain ⟨i, hi⟩ := List.getElem?_of_mem hr
      have hi' : i < s.X.rows.length := by rw [List.getElem?_eq_some_iff] at hi; exact hi.1
      obtain ⟨p, hp, hu⟩ := hone i hi'
      refine ⟨p, hp, ?_⟩
      intro j d hj
      rw [List.getElem?_map] at hj
      cases hf : fs[j]? with
      | none => rw [hf] at hj; simp at hj
      | some f =>
        rw [hf] at hj
        simp only [Option.map_some, Option.some.injEq] at hj
        subst hj
        rw [← hu j f hf]
        obtain ⟨c, h1, h2⟩ := hform f (List.mem_of_getElem? hf)
        simp only [Table.iloc, Table.select]
        rw [h2, mem_select _ hnd _ i r hi]
        simp [hi']
  · simp only [bind, Except.bind] at hs
    split at hs
    · cases hs
    rename_i fs hfs
    cases hs
    obtain ⟨h2, hkn, hlen, hform, hone⟩ := kfold_ok (henv _ _) hfs
    rw [harg] at hlen hone
    have hgn : (unique (s.X.rows.map s.grouping)).Nodup := nodup_unique _
    have hpos : ∀ r ∈ s.X.rows, ∃ i : Nat, (unique (s.X.rows.map s.grouping))[i]? = some (s.grouping r) := by
      intro r hr
      exact List.getElem?_of_mem (mem_unique.mpr (List.mem_map.mpr ⟨r, hr, rfl⟩))
    refine ⟨by simpa using hlen, ?_, ?_⟩
    · intro d hd
      obtain ⟨f, hf, rfl⟩ := List.mem_map.mp hd
      obtain ⟨c, h1, h2⟩ := hform f hf
      simp only [Table.loc, Table.select]
      rw [h1, h2]
      refine ⟨trivial, trivial, hnd.filter _, hnd.filter _, ?_, ?_⟩
      · rintro r ⟨hr1, hr2⟩
        rw [List.mem_filter, List.contains_iff_mem] at hr1 hr2
        obtain ⟨i, hi⟩ := hpos r hr1.1
        rw [mem_select _ hgn _ i _ hi] at hr1 hr2
        simp_all
      · intro r
        rw [List.mem_filter, List.mem_filter, List.contains_iff_mem, List.contains_iff_mem]
        constructor
        · intro hr
          obtain ⟨i, hi⟩ := hpos r hr
          rw [mem_select _ hgn _ i _ hi, mem_select _ hgn _ i _ hi]
          cases c.contains i <;> simp [hr]
        · rintro (hr | hr) <;> exact hr.1
    · intro r hr
      obtain ⟨i, hi⟩ := hpos r hr
      have hi' : i < (unique (s.X.rows.map s.grouping)).length := by
        rw [List.getElem?_eq_some_iff] at hi; exact hi.1
      obtain ⟨p, hp, hu⟩ := hone i hi'
      refine ⟨p, hp, ?_⟩
      intro j d hj
      rw [List.getElem?_map] at hj
      cases hf : fs[j]? with
      | none => rw [hf] at hj; simp at hj
      | some f =>
        rw [hf] at hj
        simp only [Option.map_some, Option.some.injEq] at hj
        subst hj
        rw [← hu j f hf]
        obtain ⟨c, h1, h2⟩ := hform f (List.mem_of_getElem? hf)
        simp only [Table.loc, Table.select]
        rw [h2, List.mem_filter, List.contains_iff_mem, mem_select _ hgn _ i _ hi]
        simp [hi', hr]

/-- C48: the datasets show the cleaned features and targets unchanged -/
theorem C48_cells (env : Env) (s t : Splitter) (hs : split env s = .ok t) :
    ∀ d ∈ t.datasets, d.trainX.cols = (s.X.select s.featureLabels).cols ∧
      d.testX.cols = (s.X.select s.featureLabels).cols ∧ d.trainY.cols = s.y.cols ∧
      d.testY.cols = s.y.cols := by
  unfold split at hs
  split at hs
  all_goals
    simp only [bind, Except.bind] at hs
    split at hs
    · cases hs
    rename_i fs hfs
    cases hs
    intro d hd
    obtain ⟨f, hf, rfl⟩ := List.mem_map.mp hd
    exact ⟨rfl, rfl, rfl, rfl⟩

theorem split_groups (env : Env) (henv : Shuffles env) (s t : Splitter) (l : List Str)
    (hl : s.args.splitCols = some l) (hs : split env s = .ok t) :
    ∀ d ∈ t.datasets, ∀ r ∈ d.trainX.rows, ∀ q ∈ d.testX.rows, s.grouping r ≠ s.grouping q := by
  unfold split at hs
  rw [hl] at hs
  simp only [bind, Except.bind] at hs
  split at hs
  · cases hs
  rename_i fs hfs
  cases hs
  obtain ⟨-, -, -, hform, -⟩ := kfold_ok (henv _ _) hfs
  intro d hd r hr q hq e
  obtain ⟨f, hf, rfl⟩ := List.mem_map.mp hd
  obtain ⟨c, h1, h2⟩ := hform f hf
  simp only [Table.loc, Table.select] at hr hq
  rw [h1, List.mem_filter, List.contains_iff_mem] at hr
  rw [h2, List.mem_filter, List.contains_iff_mem, ← e] at hq
  have hgn : (unique (s.X.rows.map s.grouping)).Nodup := nodup_unique _
  obtain ⟨i, hi⟩ := List.getElem?_of_mem (mem_unique.mpr (List.mem_map.mpr ⟨r, hr.1, rfl⟩) :
    s.grouping r ∈ unique (s.X.rows.map s.grouping))
  rw [mem_select _ hgn _ i _ hi] at hr hq
  simp_all

/-- C48: samples with the same values in the split columns are never on both sides of a dataset, as
long as no split column is also a feature or an exclusion column.  Missing for the whole property:
see `C48_groups_violated`. -/
theorem C48_groups_partial (env : Env) (henv : Shuffles env) (a : Args) (m : Table) (s t : Splitter)
    (h : construct env a m = .ok s) (hs : split env s = .ok t) (l : List Str)
    (hl : a.splitCols = some l) (hn : s.matrix.names.Nodup)
    (hsep : ∀ n ∈ l, n ∉ a.features ∧ n ∉ a.exclusion.getD []) (hln : l.Nodup) :
    ∀ d ∈ t.datasets, ∀ r ∈ d.trainX.rows, ∀ q ∈ d.testX.rows,
      ∃ n ∈ l, cellOf s.X n r ≠ cellOf s.X n q := by
  intro d hd r hr q hq
  obtain ⟨hmat, harg, hcl, -, -⟩ := construct_ok h
  have hg := split_groups env henv s t l (by rw [harg]; exact hl) hs d hd r hr q hq
  obtain ⟨hmiss, hgrp, -, hms, -, -, -, hX, -, -, -⟩ := clean_ok hcl
  by_contra hne
  simp only [not_exists, not_and, not_not] at hne
  apply hg
  rw [hgrp, hl]
  unfold groupOf
  congr 1
  apply List.map_congr_left
  intro n hnl
  simp only [Option.getD_some] at hnl
  have hcol : ∃ c, (filled a s.matrix).cols.filter (fun c => c.name = n) = [c] := by
    have hin : n ∈ (filled a s.matrix).names := missing_nil hms n (by rw [hl]; exact hnl)
    have hall : ∀ k ∈ a.features ++ a.splitCols.getD [] ++ a.exclusion.getD [], k ∈ s.matrix.names := by
      intro k hk
      apply missing_nil hmiss
      simp only [List.append_assoc, List.mem_append] at hk ⊢
      tauto
    have hnames : (filled a s.matrix).names =
        (a.features ++ a.splitCols.getD [] ++ a.exclusion.getD []).filter (enough s.matrix a.featThresh) := by
      rw [filled_names]
      unfold Table.names
      rw [kept_cols hn hall, List.map_map]
      simp [Function.comp_def]
    have hcount : ((filled a s.matrix).names.filter (fun k => k = n)).length ≤ 1 := by
      rw [hnames, List.filter_filter]
      refine le_trans (List.Sublist.length_le (l₂ := (a.features ++ a.splitCols.getD [] ++
        a.exclusion.getD []).filter (fun k => k = n)) ?_) ?_
      · apply List.monotone_filter_right
        intro k hk
        simp only [Bool.and_eq_true] at hk
        exact hk.1
      · have e1 : a.features.filter (fun k => k = n) = [] := by
          rw [List.filter_eq_nil_iff]; intro k hk; simp only [decide_eq_true_eq]; rintro rfl
          exact (hsep k hnl).1 hk
        have e2 : (a.exclusion.getD []).filter (fun k => k = n) = [] := by
          rw [List.filter_eq_nil_iff]; intro k hk; simp only [decide_eq_true_eq]; rintro rfl
          exact (hsep k hnl).2 hk
        rw [List.filter_append, List.filter_append, e1, e2, hl]
        simp only [Option.getD_some, List.nil_append, List.append_nil]
        rw [← List.countP_eq_length_filter]
        have := List.nodup_iff_count.mp hln n
        have e3 : List.countP (fun k => decide (k = n)) l = l.count n := by
          unfold List.count
          apply List.countP_congr
          intro k _; simp
        omega
    have hlen : ((filled a s.matrix).cols.filter (fun c => c.name = n)).length ≤ 1 := by
      unfold Table.names at hcount
      rw [List.filter_map, List.length_map] at hcount
      exact hcount
    obtain ⟨c, hc, e⟩ := List.mem_map.mp hin
    have hm' : c ∈ (filled a s.matrix).cols.filter (fun c => c.name = n) :=
      List.mem_filter.mpr ⟨hc, by simpa using e⟩
    match hfl : (filled a s.matrix).cols.filter (fun c => c.name = n) with
    | [] => rw [hfl] at hm'; cases hm'
    | [c'] => exact ⟨c', hfl⟩
    | _ :: _ :: _ => rw [hfl] at hlen; simp at hlen
  obtain ⟨c, hc⟩ := hcol
  have hcell := hne n hnl
  have hfind : s.X.cols.find? (fun c => c.name = n) = some c := by
    rw [hX]
    show (filled a s.matrix).cols.find? _ = _
    rw [← List.head?_filter, hc]; rfl
  unfold cellOf at hcell
  rw [hfind] at hcell
  simp only at hcell
  unfold cellText
  rw [hc]
  simp only
  rw [hcell]

/-- a column over four samples -/
def demoCol (n : String) (r1 r2 r3 r4 : Option Rat) : Col :=
  ⟨n.toList, fun r => if r = "r1".toList then r1 else if r = "r2".toList then r2
    else if r = "r3".toList then r3 else if r = "r4".toList then r4 else none⟩

def demoRows : List Str := ["r1".toList, "r2".toList, "r3".toList, "r4".toList]

/-- no shuffling; the text of a series ends with the label of the row -/
def demoEnv : Env where
  shuffle := fun _ n => List.range n
  str := fun v => match v with
    | none => "nan".toList
    | some x => (toString x.num).toList
  strSeries := fun r _ => "Name: ".toList ++ r

theorem demoEnv_shuffles : Shuffles demoEnv := fun _ _ => List.Perm.refl _

/-- names of the samples on the two sides of each dataset -/
def sides (x : Except Err Splitter) : Option (List (List String × List String)) :=
  match x with
  | .ok t => some (t.datasets.map (fun d => (d.trainX.rows.map String.ofList, d.testX.rows.map String.ofList)))
  | .error _ => none

def demoMatrix : Table :=
  ⟨demoRows, [demoCol "g" (some 1) (some 2) (some 1) (some 2), demoCol "a" (some 5) none (some 7) (some 8),
    demoCol "y" (some 1) (some 2) (some 3) (some 4)]⟩

def demoArgs : Args :=
  { features := ["a".toList], targets := ["y".toList], nSplits := 2, splitCols := some ["g".toList] }

/-- the hypotheses of `C48_split` and `C48_groups_partial` are met by a splitter with two groups -/
example : sides (construct demoEnv demoArgs demoMatrix >>= split demoEnv) =
    some [(["r2", "r4"], ["r1", "r3"]), (["r1", "r3"], ["r2", "r4"])] := by decide +kernel

example : ("g".toList : Str) ∉ demoArgs.features ∧ (demoMatrix.rename stripName).names.Nodup := by
  decide +kernel

/-- C48 fails when a split column is also a feature: the text of the grouping value then contains the
name of the sample, every sample is a group of its own, and samples with the same value are on both
sides -/
theorem C48_groups_violated : ∃ (env : Env) (a : Args) (m : Table) (s t : Splitter) (l : List Str),
    Shuffles env ∧ construct env a m = .ok s ∧ split env s = .ok t ∧ a.splitCols = some l ∧
    s.matrix.names.Nodup ∧ l.Nodup ∧
    ∃ d ∈ t.datasets, ∃ r ∈ d.trainX.rows, ∃ q ∈ d.testX.rows, ∀ n ∈ l, cellOf m n r = cellOf m n q := by
  let a : Args := { demoArgs with features := ["g".toList] }
  have key : (construct demoEnv a demoMatrix >>= fun s => split demoEnv s >>= fun t =>
      Except.ok (decide (s.matrix.names.Nodup) && t.datasets.any (fun d =>
        d.trainX.rows.contains "r3".toList && d.testX.rows.contains "r1".toList))) = .ok true := by
    decide +kernel
  cases hs : construct demoEnv a demoMatrix with
  | error e => rw [hs] at key; cases key
  | ok s =>
    rw [hs] at key
    change (split demoEnv s >>= _) = _ at key
    cases ht : split demoEnv s with
    | error e => rw [ht] at key; cases key
    | ok t =>
      rw [ht] at key
      injection key with key
      simp only [Bool.and_eq_true, decide_eq_true_eq, List.any_eq_true, List.contains_iff_mem] at key
      obtain ⟨k1, d, hd, k2, k3⟩ := key
      refine ⟨demoEnv, a, demoMatrix, s, t, ["g".toList], demoEnv_shuffles, hs, ht, rfl, k1, by simp,
        d, hd, "r3".toList, k2, "r1".toList, k3, ?_⟩
      intro n hn
      rw [List.mem_singleton] at hn
      subst hn
      decide +kernel

/-! ### Cleaning (C49) -/

theorem rows_pos {env : Env} {a : Args} {m : Table} {s : Splitter} (h : construct env a m = .ok s) :
    0 < s.matrix.rows.length := by
  obtain ⟨h1, -, h3, -⟩ := construct_ok h
  obtain ⟨-, -, -, -, -, h6, -, -, -, -, -⟩ := clean_ok h3
  have hsub := (construct_rows h).1
  have e : s.matrix.rows = m.rows := by rw [h1]; split <;> rfl
  rw [e]
  have := hsub.length_le
  omega

theorem decide_has (m : Table) (r n : Str) : decide (Has m r n) = (cellOf m n r).isSome := Bool.decide_coe _

/-- C49: without split and exclusion columns, a feature is kept iff the fraction of the samples having
it reaches the feature threshold, and a sample iff the fraction of the kept features it has reaches the
sample threshold and it has all targets.  Missing for the whole property: see `C49_sample_violated`. -/
theorem C49_splitter_partial (env : Env) (a : Args) (m : Table) (s : Splitter)
    (h : construct env a m = .ok s) (hsp : a.splitCols = none) (hex : a.exclusion = none)
    (hn : s.matrix.names.Nodup) :
    s.featureLabels = a.features.filter (fun n => a.featThresh ≤ featureFraction s.matrix n) ∧
    ∀ r, r ∈ s.X.rows ↔ r ∈ m.rows ∧ a.sampleThresh ≤ sampleFraction s.matrix s.featureLabels r ∧
      ∀ t ∈ a.targets, Has s.matrix r t := by
  have hpos := rows_pos h
  obtain ⟨h1, -, h3, h4, -⟩ := construct_ok h
  obtain ⟨hmiss, hgrp, -, -, -, -, h7, hX, hy, hr, -⟩ := clean_ok h3
  have e : s.matrix.rows = m.rows := by rw [h1]; split <;> rfl
  have hall : ∀ k ∈ a.targets ++ a.features, k ∈ s.matrix.names := by
    intro k hk
    apply missing_nil hmiss
    rw [hsp, hex]; simpa using hk
  have hk : (kept a s.matrix).cols = (a.features.filter (enough s.matrix a.featThresh)).map
      (fun n => ⟨n, cellOf s.matrix n⟩) := by
    rw [kept_cols hn]
    · rw [hsp, hex]; simp
    · intro k hk
      apply hall
      rw [hsp, hex] at hk
      simp only [Option.getD_none, List.append_nil] at hk
      simp [hk]
  have hen : a.features.filter (enough s.matrix a.featThresh) =
      a.features.filter (fun n => a.featThresh ≤ featureFraction s.matrix n) := by
    apply List.filter_congr
    intro n _
    unfold enough featureFraction
    rw [decide_eq_decide, frac_iff _ _ _ hpos]
    simp only [decide_has]
  have hnames : s.X.names = a.features.filter (fun n => a.featThresh ≤ featureFraction s.matrix n) := by
    rw [hX]
    show (filled a s.matrix).names = _
    rw [filled_names]
    unfold Table.names
    rw [hk, List.map_map, ← hen]
    simp [Function.comp_def]
  have hlab : s.featureLabels = a.features.filter (fun n => a.featThresh ≤ featureFraction s.matrix n) := by
    rw [h4, hnames, List.filter_eq_self]
    intro n hn'
    simpa using (List.mem_filter.mp hn').1
  refine ⟨hlab, ?_⟩
  intro r
  have hlen : (kept a s.matrix).cols.length = s.featureLabels.length := by
    rw [hk, List.length_map, hen, hlab]
  have hlpos : 0 < s.featureLabels.length := by
    rw [hsp, hX] at h7
    have : 1 ≤ (filled a s.matrix).cols.length := by simpa using h7
    have e2 : (filled a s.matrix).cols.length = (kept a s.matrix).cols.length := by
      unfold filled fillFalse; simp [sampled_cols]
    omega
  have hcw : colsWith (kept a s.matrix).cols r =
      (s.featureLabels.filter (fun n => Has s.matrix r n)).length := by
    unfold colsWith
    rw [hk, hen, ← hlab, List.filter_map, List.length_map]
    congr 1
    apply List.filter_congr
    intro n _
    rw [decide_has]; rfl
  have hpass : passes a s.grouping (filled a s.matrix) r = true := by
    unfold passes; rw [hex]
  have htar : hasTargets a s.matrix r = true ↔ ∀ t ∈ a.targets, Has s.matrix r t := by
    unfold hasTargets
    rw [select_cols hn (fun k hk => hall k (by simp [hk]))]
    simp [Has]
  rw [hr, List.mem_filter, List.mem_filter, hpass, htar, filled_rows]
  unfold sampled Table.dropRows
  simp only [List.mem_filter, decide_eq_true_eq, and_true]
  rw [hcw, hlen, frac_iff _ _ _ hlpos]
  show (r ∈ s.matrix.rows ∧ _) ∧ _ ↔ _
  rw [e]
  unfold sampleFraction
  tauto

theorem find_map_name (l : List Col) (f : Col → Col) (hf : ∀ c, (f c).name = c.name) (n : Str) :
    (l.map f).find? (fun c => c.name = n) = (l.find? (fun c => c.name = n)).map f := by
  rw [List.find?_map]
  congr 2
  funext c
  simp [hf]

/-- the column of a feature after the thresholds -/
theorem kept_find {env : Env} {a : Args} {m : Table} {s : Splitter} (h : construct env a m = .ok s)
    (hn : s.matrix.names.Nodup) (n : Str) (hx : n ∈ s.X.names) :
    (kept a s.matrix).cols.find? (fun c => c.name = n) = some ⟨n, cellOf s.matrix n⟩ := by
  obtain ⟨h1, -, h3, h4, -⟩ := construct_ok h
  obtain ⟨hmiss, -, -, -, -, -, -, hX, -, -, -⟩ := clean_ok h3
  have hall : ∀ k ∈ a.features ++ a.splitCols.getD [] ++ a.exclusion.getD [], k ∈ s.matrix.names := by
    intro k hk
    apply missing_nil hmiss
    simp only [List.append_assoc, List.mem_append] at hk ⊢
    tauto
  rw [hX] at hx
  change n ∈ (filled a s.matrix).names at hx
  rw [filled_names] at hx
  unfold Table.names at hx
  rw [kept_cols hn hall] at hx ⊢
  generalize (a.features ++ a.splitCols.getD [] ++ a.exclusion.getD []).filter
    (enough s.matrix a.featThresh) = l at hx ⊢
  clear hall
  induction l with
  | nil => simp at hx
  | cons k l ih =>
    by_cases hk : k = n
    · subst hk; simp
    · simp only [List.map_cons, List.mem_cons] at hx
      rw [List.map_cons, List.find?_cons_of_neg (by simpa using hk)]
      apply ih
      rcases hx with e | e
      · exact absurd e.symm hk
      · exact e

/-- the cells of the cleaned frame -/
theorem cellOf_X {env : Env} {a : Args} {m : Table} {s : Splitter} (h : construct env a m = .ok s)
    (hn : s.matrix.names.Nodup) (n : Str) (hx : n ∈ s.X.names) :
    cellOf s.X n = (fillCol a.impute (sampled a s.matrix).rows
      (if n ∈ a.exclusion.getD [] then ⟨n, fun r => some ((cellOf s.matrix n r).getD 0)⟩
        else ⟨n, cellOf s.matrix n⟩)).cell := by
  have hk := kept_find h hn n hx
  obtain ⟨h1, -, h3, h4, -⟩ := construct_ok h
  obtain ⟨hmiss, -, -, -, -, -, -, hX, -, -, -⟩ := clean_ok h3
  have hc : s.X.cols = (filled a s.matrix).cols := by rw [hX]
  have hf : (filled a s.matrix).cols.find? (fun c => c.name = n) =
      some (fillCol a.impute (sampled a s.matrix).rows
      (if n ∈ a.exclusion.getD [] then ⟨n, fun r => some ((cellOf s.matrix n r).getD 0)⟩
        else ⟨n, cellOf s.matrix n⟩)) := by
    unfold filled fillFalse
    simp only
    rw [find_map_name _ _ (fun c => fillCol_name ..), find_map_name _ _ (fun c => by split <;> rfl),
      sampled_cols, hk]
    simp only [Option.map_some]
  funext r
  show (match s.X.cols.find? (fun c => c.name = n) with | none => none | some c => c.cell r) = _
  rw [hc, hf]

/-- C49: values that are present are not changed -/
theorem C49_values (env : Env) (a : Args) (m : Table) (s : Splitter)
    (h : construct env a m = .ok s) (hn : s.matrix.names.Nodup) (n : Str) (hx : n ∈ s.featureLabels)
    (r : Str) (v : Rat) (hv : cellOf s.matrix n r = some v) : cellOf s.X n r = some v := by
  obtain ⟨-, -, -, h4, -⟩ := construct_ok h
  rw [h4] at hx
  rw [cellOf_X h hn n (List.mem_filter.mp hx).1]
  apply fillCol_some
  split
  · simp [hv]
  · exact hv

/-- C49: a sample with a missing target, or for which an exclusion column is false or missing, never
reaches the datasets -/
theorem C49_excluded (env : Env) (henv : Shuffles env) (a : Args) (m : Table) (hm : m.rows.Nodup)
    (s t : Splitter) (h : construct env a m = .ok s) (hs : split env s = .ok t)
    (hn : s.matrix.names.Nodup) (d : Dataset) (hd : d ∈ t.datasets) (r : Str)
    (hr : r ∈ d.trainX.rows ∨ r ∈ d.testX.rows) :
    (∀ n ∈ a.targets, Has s.matrix r n) ∧
    ∀ excl, a.exclusion = some excl → ∀ e ∈ excl, ∃ v, cellOf s.matrix e r = some v ∧ v ≠ 0 := by
  have hrX : r ∈ s.X.rows := ((C48_split env henv a m hm s t h hs).2.1 d hd).2.2.2.2.2 r |>.mpr hr
  obtain ⟨h1, -, h3, h4, -⟩ := construct_ok h
  obtain ⟨hmiss, hgrp, hxm, -, -, -, h7, hX, hy, hrr, -⟩ := clean_ok h3
  rw [hrr, List.mem_filter, List.mem_filter] at hrX
  obtain ⟨⟨-, hp⟩, ht⟩ := hrX
  constructor
  · unfold hasTargets at ht
    rw [select_cols hn (fun k hk => missing_nil hmiss k (by simp [hk]))] at ht
    simpa [Has] using ht
  · intro excl he e hee
    unfold passes at hp
    rw [he] at hp
    simp only [Bool.and_eq_true] at hp
    have hp := hp.1
    unfold included at hp
    rw [List.all_eq_true] at hp
    have hp := hp e hee
    rw [List.all_eq_true] at hp
    have hex : e ∈ s.X.names := by
      have := missing_nil hxm e (by rw [he]; exact hee)
      rw [hX]
      show e ∈ (filled a s.matrix).names
      rw [filled_names]; exact this
    have hcell := cellOf_X h hn e hex
    have he' : e ∈ a.exclusion.getD [] := by rw [he]; exact hee
    rw [if_pos he'] at hcell
    have hcr : cellOf s.X e r = some ((cellOf s.matrix e r).getD 0) := by
      rw [hcell]; rfl
    obtain ⟨c, hc⟩ : ∃ c, s.X.cols.find? (fun c => c.name = e) = some c := by
      cases hf : s.X.cols.find? (fun c => c.name = e) with
      | some c => exact ⟨c, rfl⟩
      | none => unfold cellOf at hcr; rw [hf] at hcr; cases hcr
    have hcc : cellOf s.X e r = c.cell r := by
      unfold cellOf; rw [hc]
    have hcm : c ∈ (filled a s.matrix).cols.filter (fun c => c.name = e) := by
      rw [List.mem_filter]
      have hmem := List.mem_of_find?_eq_some hc
      rw [hX] at hmem
      exact ⟨hmem, by have := List.find?_some hc; exact this⟩
    have := hp c hcm
    rw [← hcc, hcr] at this
    cases hv : cellOf s.matrix e r with
    | none => rw [hv] at this; simp at this
    | some v => rw [hv] at this; exact ⟨v, rfl, by simpa using this⟩

theorem included_iff {env : Env} {a : Args} {m : Table} {s : Splitter} (h : construct env a m = .ok s)
    (hn : s.matrix.names.Nodup) (r : Str) :
    included (a.exclusion.getD []) (filled a s.matrix) r = true ↔
      Flagged s.matrix (a.exclusion.getD []) r := by
  obtain ⟨h1, -, h3, -⟩ := construct_ok h
  obtain ⟨hmiss, -, hxm, -⟩ := clean_ok h3
  have hk := kept_cols (a := a) hn (fun n hn' => missing_nil hmiss n (by
    simp only [List.append_assoc, List.mem_append] at hn' ⊢; tauto))
  have hcols : (filled a s.matrix).cols = (kept a s.matrix).cols.map (fun c =>
      fillCol a.impute (sampled a s.matrix).rows
        (if c.name ∈ a.exclusion.getD [] then { c with cell := fun r => some ((c.cell r).getD 0) } else c)) := by
    unfold filled fillFalse
    simp only [List.map_map, sampled_cols]
    rfl
  unfold included Flagged
  rw [List.all_eq_true]
  constructor
  · intro hall e he
    have := hall e he
    rw [List.all_eq_true] at this
    have hek : e ∈ (kept a s.matrix).names := missing_nil hxm e he
    obtain ⟨c, hc, hce⟩ := List.mem_map.mp hek
    have hcell : c = ⟨e, cellOf s.matrix e⟩ := by
      rw [hk] at hc
      obtain ⟨n, -, rfl⟩ := List.mem_map.mp hc
      simp only at hce
      rw [hce]
    have hv := this _ (List.mem_filter.mpr ⟨by rw [hcols]; exact List.mem_map.mpr ⟨c, hc, rfl⟩, by
      rw [fillCol_name]; split <;> simp [hce]⟩)
    rw [if_pos (by rw [hce]; exact he), fillCol_some _ _ _ _ _ rfl, hcell] at hv
    change decide (some ((cellOf s.matrix e r).getD 0) ≠ some 0) = true at hv
    cases hcv : cellOf s.matrix e r with
    | none => rw [hcv] at hv; simp at hv
    | some v => rw [hcv] at hv; exact ⟨by simp, by simpa using hv⟩
  · intro hall e he
    rw [List.all_eq_true]
    intro c hc
    obtain ⟨hc1, hc2⟩ := List.mem_filter.mp hc
    rw [hcols] at hc1
    obtain ⟨k, hkm, rfl⟩ := List.mem_map.mp hc1
    rw [hk] at hkm
    obtain ⟨n, -, rfl⟩ := List.mem_map.mp hkm
    have hne : n = e := by
      rw [fillCol_name] at hc2
      split at hc2 <;> simpa using hc2
    subst hne
    rw [if_pos he, fillCol_some _ _ _ _ _ rfl]
    obtain ⟨hv, hv0⟩ := hall n he
    cases hcv : cellOf s.matrix n r with
    | none => exact absurd hcv hv
    | some v =>
      rw [hcv] at hv0
      show decide (some ((cellOf s.matrix n r).getD 0) ≠ some 0) = true
      rw [hcv]; simpa using hv0

/-- C49, the samples that are kept, with split and exclusion columns: exactly those which have enough
of the kept columns, whose flags are all set and whose targets are present, and of whose group a large
enough part has its flags set.  (`s.grouping` is the grouping column of the cleaned frame.) -/
theorem C49_samples (env : Env) (a : Args) (m : Table) (s : Splitter)
    (h : construct env a m = .ok s) (hn : s.matrix.names.Nodup) (cols : List Str)
    (hcols : cols = wellFilled s.matrix a.featThresh
      (a.features ++ a.splitCols.getD [] ++ a.exclusion.getD [])) (r : Str) :
    r ∈ s.X.rows ↔ r ∈ m.rows ∧ WellFilled s.matrix a.sampleThresh cols r ∧
      Flagged s.matrix (a.exclusion.getD []) r ∧ (∀ t ∈ a.targets, Has s.matrix r t) ∧
      (a.splitCols.isSome = true → a.exclusion.isSome = true →
        a.dropSplit ≤ flaggedShare s.matrix (a.exclusion.getD []) (fun q =>
          decide (WellFilled s.matrix a.sampleThresh cols q) && decide (s.grouping q = s.grouping r))) := by
  have hinc := included_iff h hn
  obtain ⟨h1, -, h3, h4, -⟩ := construct_ok h
  obtain ⟨hmiss, hgrp, -, -, -, -, -, hX, hy, hr, -⟩ := clean_ok h3
  have e : s.matrix.rows = m.rows := by rw [h1]; split <;> rfl
  have hk := kept_cols (a := a) hn (fun n hn' => missing_nil hmiss n (by
    simp only [List.append_assoc, List.mem_append] at hn' ⊢; tauto))
  have hen : (a.features ++ a.splitCols.getD [] ++ a.exclusion.getD []).filter
      (enough s.matrix a.featThresh) = cols := by
    rw [hcols]
    unfold wellFilled
    apply List.filter_congr
    intro n _
    unfold enough
    rw [decide_eq_decide]
    simp only [decide_has]
  rw [hen] at hk
  have hsam : ∀ _ : Str, (sampled a s.matrix).rows = s.matrix.rows.filter (fun q =>
      decide (WellFilled s.matrix a.sampleThresh cols q)) := by
    intro q
    unfold sampled Table.dropRows
    show s.matrix.rows.filter _ = _
    apply List.filter_congr
    intro q _
    rw [decide_eq_decide]
    unfold WellFilled
    have : colsWith (kept a s.matrix).cols q = (cols.filter (fun n => Has s.matrix q n)).length := by
      unfold colsWith
      rw [hk, List.filter_map, List.length_map]
      congr 1
      apply List.filter_congr
      intro n _
      rw [decide_has]; rfl
    rw [this, hk, List.length_map]
  have htar : hasTargets a s.matrix r = true ↔ ∀ t ∈ a.targets, Has s.matrix r t := by
    unfold hasTargets
    rw [select_cols hn (fun k hk => missing_nil hmiss k (by simp [hk]))]
    simp [Has]
  rw [hr, List.mem_filter, List.mem_filter, htar, filled_rows, hsam r, List.mem_filter, decide_eq_true_eq, e]
  have hshare : ∀ q, ((filled a s.matrix).rows.filter (fun p => s.grouping p == s.grouping q)) =
      m.rows.filter (fun p => decide (WellFilled s.matrix a.sampleThresh cols p) &&
        decide (s.grouping p = s.grouping q)) := by
    intro q
    rw [filled_rows, hsam r, List.filter_filter, e]
    apply List.filter_congr
    intro p _
    rw [Bool.eq_iff_iff]
    simp only [Bool.and_eq_true, decide_eq_true_eq, beq_iff_eq]
    tauto
  have hshare2 : ∀ q, ((filled a s.matrix).rows.filter (fun p =>
        included (a.exclusion.getD []) (filled a s.matrix) p && (s.grouping p == s.grouping q))) =
      m.rows.filter (fun p => (decide (WellFilled s.matrix a.sampleThresh cols p) &&
        decide (s.grouping p = s.grouping q)) && decide (Flagged s.matrix (a.exclusion.getD []) p)) := by
    intro q
    rw [filled_rows, hsam r, List.filter_filter, e]
    apply List.filter_congr
    intro p _
    rw [Bool.eq_iff_iff]
    simp only [Bool.and_eq_true, hinc, decide_eq_true_eq, beq_iff_eq]
    tauto
  have hpass : r ∈ m.rows → WellFilled s.matrix a.sampleThresh cols r →
      (passes a s.grouping (filled a s.matrix) r = true ↔ Flagged s.matrix (a.exclusion.getD []) r ∧
      (a.splitCols.isSome = true → a.exclusion.isSome = true →
        a.dropSplit ≤ flaggedShare s.matrix (a.exclusion.getD []) (fun q =>
          decide (WellFilled s.matrix a.sampleThresh cols q) && decide (s.grouping q = s.grouping r)))) := by
    intro hrm hwf
    rw [← hinc r]
    unfold passes
    cases hx : a.exclusion with
    | none => simp [included]
    | some excl =>
      rw [hx] at hshare2
      simp only [Option.getD_some] at hshare2 ⊢
      cases hs : a.splitCols with
      | none => simp
      | some l =>
        simp only [Bool.and_eq_true, Option.isSome_some, true_implies]
        apply and_congr_right
        intro _
        unfold flaggedShare
        rw [e, ← hshare r, ← hshare2 r]
        simp only [Bool.not_eq_true', List.contains_eq_mem, decide_eq_false_iff_not]
        unfold excludedGroups
        rw [List.mem_filter, mem_unique]
        have hmem : s.grouping r ∈ (filled a s.matrix).rows.map s.grouping := by
          apply List.mem_map_of_mem
          rw [filled_rows, hsam r, List.mem_filter, e]
          exact ⟨hrm, by simpa using hwf⟩
        simp only [hmem, true_and, decide_eq_true_eq, not_lt]
  constructor
  · rintro ⟨⟨⟨h5, h6⟩, h7⟩, h8⟩
    obtain ⟨h9, h10⟩ := (hpass h5 h6).mp h7
    exact ⟨h5, h6, h9, h8, h10⟩
  · rintro ⟨h5, h6, h9, h8, h10⟩
    exact ⟨⟨⟨h5, h6⟩, (hpass h5 h6).mpr ⟨h9, h10⟩⟩, h8⟩

/-- one flagged sample of three is too few for group 1 at the default threshold -/
example : (construct demoEnv
    { features := ["a".toList], targets := ["y".toList], nSplits := 2, exclusion := some ["x".toList],
      splitCols := some ["g".toList] }
    ⟨["r1", "r2", "r3", "r4", "r5"].map String.toList,
      [⟨"a".toList, fun _ => some 1⟩, ⟨"y".toList, fun _ => some 2⟩,
       ⟨"g".toList, fun r => if r = "r1".toList ∨ r = "r2".toList ∨ r = "r3".toList then some 1 else some 2⟩,
       ⟨"x".toList, fun r => if r = "r1".toList ∨ r = "r4".toList ∨ r = "r5".toList then some 1 else some 0⟩]⟩).toOption.map
        (fun s => s.X.rows.map String.ofList) = some ["r4", "r5"] := by decide +kernel

/-- C49: after imputation no feature is missing, for thresholds that leave enough overlap, such as the
defaults.  Missing for the whole property: see `C49_complete_violated`. -/
theorem C49_complete_partial (env : Env) (a : Args) (m : Table) (s : Splitter)
    (h : construct env a m = .ok s) (hi : a.impute = .median ∨ a.impute = .mean)
    (hf : 0 < a.featThresh) (hs : a.sampleThresh ≤ 1)
    (hfs : 1 - a.featThresh ≤ a.featThresh * (1 - a.sampleThresh)) : Complete s.X := by
  have hpos := rows_pos h
  obtain ⟨h1, -, h3, h4, -⟩ := construct_ok h
  obtain ⟨-, -, -, -, -, -, -, hX, -, hrr, -⟩ := clean_ok h3
  intro r hr c hc
  have hrs : r ∈ (sampled a s.matrix).rows := by
    rw [hrr, List.mem_filter, List.mem_filter] at hr
    exact hr.1.1
  rw [hX] at hc
  change c ∈ (filled a s.matrix).cols at hc
  unfold filled fillFalse at hc
  simp only [List.mem_map] at hc
  obtain ⟨d, ⟨k, hk, rfl⟩, rfl⟩ := hc
  rw [fillCol_isSome _ hi _ _ _ hrs]
  obtain ⟨q, hq, hqs⟩ := kept_overlap s.matrix.rows (kept a s.matrix).cols a.featThresh a.sampleThresh
    hf hs hfs (by intro e; rw [e] at hpos; simp at hpos) (by
      intro c hc
      exact of_decide_eq_true (List.mem_filter.mp hc).2) k hk
  refine ⟨q, hq, ?_⟩
  split
  · rfl
  · exact hqs

/-- the default thresholds qualify -/
example : (0 : Rat) < demoArgs.featThresh ∧ demoArgs.sampleThresh ≤ 1 ∧
    1 - demoArgs.featThresh ≤ demoArgs.featThresh * (1 - demoArgs.sampleThresh) := by decide +kernel

/-- an exclusion column and a missing target: the samples r2 and r3 do not reach the datasets -/
example : sides (construct demoEnv
    { features := ["a".toList], targets := ["y".toList], nSplits := 2, exclusion := some ["x".toList] }
    ⟨demoRows, [demoCol "a" (some 5) (some 6) (some 7) (some 8),
      demoCol "x" (some 1) (some 0) (some 1) (some 1),
      demoCol "y" (some 1) (some 2) none (some 4)]⟩ >>= split demoEnv) =
    some [(["r4"], ["r1"]), (["r1"], ["r4"])] := by decide +kernel

/-- without split columns: the feature of one sample in four goes, then the sample without the others -/
example : (construct demoEnv
    { features := ["a".toList, "b".toList, "c".toList], targets := ["y".toList] }
    ⟨demoRows, [demoCol "a" (some 5) (some 6) none (some 8),
      demoCol "b" (some 1) (some 0) none (some 1), demoCol "c" none none none (some 1),
      demoCol "y" (some 1) (some 2) (some 3) (some 4)]⟩).toOption.map
        (fun s => (s.featureLabels.map String.ofList, s.X.rows.map String.ofList)) =
    some (["a", "b"], ["r1", "r2", "r4"]) := by decide +kernel

/-- C49 fails with split columns: they count as features, so a sample without any feature is kept -/
theorem C49_sample_violated : ∃ (env : Env) (a : Args) (m : Table) (s : Splitter) (r : Str),
    construct env a m = .ok s ∧ s.matrix.names.Nodup ∧ r ∈ s.X.rows ∧
    ¬ a.sampleThresh ≤ sampleFraction s.matrix s.featureLabels r := by
  have key : (construct demoEnv demoArgs demoMatrix >>= fun s =>
      Except.ok (decide (s.matrix.names.Nodup) && decide ("r2".toList ∈ s.X.rows) &&
        decide (¬ demoArgs.sampleThresh ≤ sampleFraction s.matrix s.featureLabels "r2".toList))) =
      .ok true := by decide +kernel
  cases hs : construct demoEnv demoArgs demoMatrix with
  | error e => rw [hs] at key; cases key
  | ok s =>
    rw [hs] at key
    injection key with key
    simp only [Bool.and_eq_true, decide_eq_true_eq] at key
    exact ⟨demoEnv, demoArgs, demoMatrix, s, "r2".toList, hs, key.1.1, key.1.2, key.2⟩

/-- C49 fails for thresholds without overlap: a kept feature may be missing in every kept sample, and
then there is nothing to impute -/
theorem C49_complete_violated : ∃ (env : Env) (a : Args) (m : Table) (s : Splitter),
    a.impute = .median ∧ a.featThresh = 1 / 2 ∧ a.sampleThresh = 1 / 2 ∧
    construct env a m = .ok s ∧ ¬ Complete s.X := by
  let a : Args := { features := ["a".toList, "b".toList, "c".toList], targets := ["y".toList],
                    featThresh := 1 / 2, sampleThresh := 1 / 2 }
  let m : Table := ⟨demoRows, [demoCol "a" (some 5) (some 6) none none,
      demoCol "b" none none (some 1) (some 1), demoCol "c" none none (some 1) (some 1),
      demoCol "y" (some 1) (some 2) (some 3) (some 4)]⟩
  have key : (construct demoEnv a m >>= fun s => Except.ok (s.X.rows.any (fun r =>
      s.X.cols.any (fun c => !((c.cell r).isSome))))) = .ok true := by decide +kernel
  cases hs : construct demoEnv a m with
  | error e => rw [hs] at key; cases key
  | ok s =>
    rw [hs] at key
    injection key with key
    refine ⟨demoEnv, a, m, s, rfl, rfl, rfl, hs, ?_⟩
    intro hc
    simp only [List.any_eq_true] at key
    obtain ⟨r, hr, c, hcc, hn⟩ := key
    rw [hc r hr c hcc] at hn
    cases hn

/-! ### Saving and loading (C50) -/

theorem clean_features (env : Env) (a : Args) (m : Table) (l : List Str) (hex : a.exclusion = none)
    (hi : a.impute = .median) (hn : m.names.Nodup)
    (hin : ∀ n ∈ a.targets ++ a.features ++ a.splitCols.getD [], n ∈ m.names)
    (hl : l = a.features.filter (enough m a.featThresh)) :
    clean env {
      features := l, targets := a.targets, featThresh := a.featThresh,
      sampleThresh := a.sampleThresh, dropNanTargets := a.dropNanTargets, homogenize := a.homogenize,
      nSplits := a.nSplits, randomState := a.randomState, splitCols := a.splitCols } m = clean env a m := by
  have hmiss : ∀ k : List Str, (∀ n ∈ k, n ∈ m.names) → missing m k = [] := by
    intro k hk
    unfold missing
    rw [List.filter_eq_nil_iff]
    intro n hn'
    simp [hk n hn']
  have e1 : missing m (a.targets ++ a.features ++ a.splitCols.getD [] ++ []) = [] :=
    hmiss _ (by simpa using hin)
  have e2 : missing m (a.targets ++ l ++ a.splitCols.getD [] ++ []) = [] := by
    apply hmiss
    intro n hn'
    apply hin
    subst hl
    simp only [List.append_nil, List.append_assoc, List.mem_append, List.mem_filter] at hn' ⊢
    tauto
  have e3 : (m.select (l ++ a.splitCols.getD [] ++ [])).dropCols a.featThresh =
      (m.select (a.features ++ a.splitCols.getD [] ++ [])).dropCols a.featThresh := by
    have hkept : ∀ k : List Str, (∀ n ∈ k, n ∈ m.names) → (m.select k).dropCols a.featThresh =
        ⟨m.rows, (k.filter (enough m a.featThresh)).map (fun n => ⟨n, cellOf m n⟩)⟩ := by
      intro k hk
      unfold Table.dropCols
      rw [select_cols hn hk, List.filter_map]
      rfl
    rw [hkept, hkept]
    · subst hl
      simp
    · intro n hn'
      apply hin
      simp only [List.append_nil, List.append_assoc, List.mem_append] at hn' ⊢
      tauto
    · intro n hn'
      apply hin
      subst hl
      simp only [List.append_nil, List.append_assoc, List.mem_append, List.mem_filter] at hn' ⊢
      tauto
  unfold clean
  rw [hex, hi]
  simp only [Option.getD_none, e1, e2, e3]
  unfold applyExclusion
  rw [hex]

theorem split_same {env : Env} {s t : Splitter} (h : split env s = .ok t) :
    t = { s with datasets := t.datasets } := by
  unfold split at h
  split at h
  all_goals
    simp only [bind, Except.bind] at h
    split at h
    · cases h
    · cases h; rfl

/-- C50: a splitter made with the median strategy and without exclusion columns is reloaded with the
same samples, features, targets and datasets, whether or not it was split before saving.  Missing for
the whole property: see `C50_violated`. -/
theorem C50_round_trip_partial (env : Env) (henv : Shuffles env) (a : Args) (m : Table)
    (hm : m.rows.Nodup) (s0 s t : Splitter) (d : Saved)
    (h : construct env a m = .ok s0) (hs : s = s0 ∨ split env s0 = .ok s)
    (hd : asDict env s = .ok (t, d))
    (hex : a.exclusion = none) (hi : a.impute = .median)
    (hn : s0.matrix.names.Nodup) (hfn : a.features.Nodup) (htn : a.targets.Nodup) (ht0 : a.targets ≠ [])
    (hf0 : s0.featureLabels ≠ []) (hsep : ∀ n ∈ a.splitCols.getD [], n ∉ a.features) :
    split env s0 = .ok t ∧ ∃ u, fromDict env d = .ok u ∧ Same t u := by
  obtain ⟨h1, harg, h3, h4, h5⟩ := construct_ok h
  obtain ⟨hmiss, hgrp, -, -, -, -, h7, hX, hy, hr, -⟩ := clean_ok h3
  -- the object left by `as_dict` is the split one
  have hst : split env s0 = .ok t ∧ d = {
      matrix := t.matrix.viaDict, features := t.featureLabels,
      targets := t.args.targets, featThresh := t.args.featThresh, sampleThresh := t.args.sampleThresh,
      dropNanTargets := t.args.dropNanTargets, homogenize := t.args.homogenize,
      nSplits := t.args.nSplits, randomState := t.args.randomState, splitCols := t.args.splitCols,
      datasets := t.datasets.map Dataset.asDict } := by
    unfold asDict at hd
    rcases hs with rfl | hs
    · rw [h5] at hd
      simp only [List.isEmpty_nil, if_true, bind, Except.bind] at hd
      cases hsp : split env s with
      | error e => rw [hsp] at hd; cases hd
      | ok t' => rw [hsp] at hd; cases hd; exact ⟨rfl, rfl⟩
    · have hll := C48_split env henv a m hm s0 s h hs
      have hne : s.datasets.isEmpty = false := by
        have hk : 2 ≤ a.nSplits := by
          unfold split at hs
          rw [harg] at hs
          split at hs
          all_goals
            simp only [bind, Except.bind] at hs
            split at hs
            · cases hs
            · rename_i hfs
              exact (kfold_ok (henv _ _) hfs).1
        have := hll.1
        cases hds : s.datasets with
        | nil => rw [hds] at this; simp at this; omega
        | cons => rfl
      rw [hne] at hd
      simp only [Bool.false_eq_true, if_false, bind, Except.bind] at hd
      cases hd
      exact ⟨hs, rfl⟩
  obtain ⟨hst, rfl⟩ := hst
  refine ⟨hst, ?_⟩
  have hsame := split_same hst
  have hcells := C48_cells env s0 t hst
  have hmem : ∀ k ∈ a.targets ++ a.features ++ a.splitCols.getD [], k ∈ s0.matrix.names := by
    intro k hk
    apply missing_nil hmiss
    rw [hex]; simpa using hk
  -- the saved features are the ones that were kept
  have hnames : s0.X.names = (a.features ++ a.splitCols.getD []).filter (enough s0.matrix a.featThresh) := by
    rw [hX]
    show (filled a s0.matrix).names = _
    rw [filled_names]
    unfold Table.names
    rw [kept_cols hn, hex, List.map_map]
    · simp [Function.comp_def]
    · intro k hk
      apply hmem
      rw [hex] at hk
      simp only [Option.getD_none, List.append_nil, List.append_assoc, List.mem_append] at hk ⊢
      tauto
  have hlab : s0.featureLabels = a.features.filter (enough s0.matrix a.featThresh) := by
    rw [h4, hnames, List.filter_append, List.filter_append]
    have e1 : (a.features.filter (enough s0.matrix a.featThresh)).filter (fun c => c ∈ a.features) =
        a.features.filter (enough s0.matrix a.featThresh) := by
      rw [List.filter_eq_self]; intro n hn'; simpa using (List.mem_filter.mp hn').1
    have e2 : ((a.splitCols.getD []).filter (enough s0.matrix a.featThresh)).filter
        (fun c => c ∈ a.features) = [] := by
      rw [List.filter_eq_nil_iff]; intro n hn'; simpa using hsep n (List.mem_filter.mp hn').1
    rw [e1, e2, List.append_nil]
  have hlabn : s0.featureLabels.Nodup := by rw [hlab]; exact hfn.filter _
  -- the frames survive the dictionary
  have hXn : ∀ n ∈ s0.featureLabels, n ∈ s0.X.names := by
    intro n hn'; rw [h4] at hn'; exact (List.mem_filter.mp hn').1
  have hselX : ((s0.X.select s0.featureLabels).cols.map Col.name) = s0.featureLabels := by
    have hone : ∀ n ∈ s0.featureLabels,
        (s0.X.cols.filter (fun c => c.name = n)).map Col.name = [n] := by
      intro n hn'
      have e : (s0.X.cols.filter (fun c => c.name = n)).map Col.name = s0.X.names.filter (fun k => k = n) := by
        unfold Table.names; rw [List.filter_map]; rfl
      rw [e, hnames, List.filter_append, List.filter_append]
      have hnf : n ∈ a.features := by rw [hlab] at hn'; exact (List.mem_filter.mp hn').1
      have e2 : ((a.splitCols.getD []).filter (enough s0.matrix a.featThresh)).filter
          (fun k => k = n) = [] := by
        rw [List.filter_eq_nil_iff]; intro k hk; simp only [decide_eq_true_eq]; rintro rfl
        exact hsep k (List.mem_filter.mp hk).1 hnf
      rw [e2, List.append_nil, ← hlab]
      exact filter_eq_one hlabn hn'
    unfold Table.select
    simp only
    generalize s0.featureLabels = l at hone
    induction l with
    | nil => rfl
    | cons n l ih =>
      rw [List.flatMap_cons, List.map_append, hone n (by simp), ih (fun k hk => hone k (by simp [hk]))]
      rfl
  have hycols : s0.y.cols = a.targets.map (fun n => ⟨n, cellOf s0.matrix n⟩) := by
    rw [hy]
    show (s0.matrix.select a.targets).cols = _
    exact select_cols hn (fun k hk => hmem k (by simp [hk]))
  have hX1 : ∀ T : Table, T.cols = (s0.X.select s0.featureLabels).cols → T.viaDict = T := by
    intro T hT
    apply viaDict_id
    · unfold Table.names; rw [hT, hselX]; exact hlabn
    · intro e
      rw [e] at hT
      rw [← hT] at hselX
      exact hf0 hselX.symm
  have hy1 : ∀ T : Table, T.cols = s0.y.cols → T.viaDict = T := by
    intro T hT
    apply viaDict_id
    · unfold Table.names; rw [hT, hycols, List.map_map]; simpa [Function.comp_def] using htn
    · rw [hT, hycols]; simpa using ht0
  have hds : t.datasets.map Dataset.asDict = t.datasets := by
    have : ∀ d ∈ t.datasets, Dataset.asDict d = d := by
      intro d hd
      obtain ⟨c1, c2, c3, c4⟩ := hcells d hd
      unfold Dataset.asDict
      rw [hX1 _ c1, hy1 _ c3, hX1 _ c2, hy1 _ c4]
    exact (List.map_congr_left this).trans (List.map_id _)
  have hmat : s0.matrix.viaDict = s0.matrix := by
    apply viaDict_id _ hn
    obtain ⟨x, hx⟩ := List.exists_mem_of_ne_nil _ ht0
    have := hmem x (by simp [hx])
    intro e
    unfold Table.names at this
    rw [e] at this
    cases this
  have hren : (if a.homogenize then s0.matrix.rename stripName else s0.matrix) = s0.matrix := by
    split
    · rename_i hh; rw [h1, if_pos hh, rename_idem]
    · rfl
  have ht1 : t.matrix = s0.matrix := by rw [hsame]
  have ht2 : t.args = a := by rw [hsame]; exact harg
  have ht3 : t.featureLabels = s0.featureLabels := by rw [hsame]
  refine ⟨{ t with
    args := {
      features := s0.featureLabels, targets := a.targets, featThresh := a.featThresh,
      sampleThresh := a.sampleThresh, dropNanTargets := a.dropNanTargets, homogenize := a.homogenize,
      nSplits := a.nSplits, randomState := a.randomState, splitCols := a.splitCols } }, ?_, ?_⟩
  · unfold fromDict construct
    simp only [ht1, ht2, ht3, hmat, hren, hds]
    rw [clean_features env a s0.matrix s0.featureLabels hex hi hn hmem hlab, h3]
    simp only [bind, Except.bind]
    have hfl : s0.X.names.filter (fun c => c ∈ s0.featureLabels) = s0.featureLabels := by
      rw [h4]
      apply List.filter_congr
      intro n hn'
      rw [decide_eq_decide, List.mem_filter]
      simp [hn']
    rw [hfl, hsame]
  · refine ⟨rfl, rfl, rfl, ?_, rfl⟩
    rw [ht2]

/-- the hypotheses of `C50_round_trip_partial` are met -/
example : (construct demoEnv demoArgs demoMatrix >>= asDict demoEnv >>= fun x => fromDict demoEnv x.2).toOption.map
    (fun u => (u.featureLabels.map String.ofList, u.X.rows.map String.ofList,
      u.datasets.map (fun d => d.testX.rows.map String.ofList))) =
    some (["a"], ["r1", "r2", "r3", "r4"], [["r1", "r3"], ["r2", "r4"]]) := by decide +kernel

/-- C50 fails with exclusion columns: they are not saved, so the reloaded splitter contains the
excluded samples -/
theorem C50_violated : ∃ (env : Env) (a : Args) (m : Table) (s t u : Splitter) (d : Saved) (r : Str),
    Shuffles env ∧ construct env a m = .ok s ∧ asDict env s = .ok (t, d) ∧ fromDict env d = .ok u ∧
    r ∉ t.X.rows ∧ r ∈ u.X.rows := by
  let a : Args := { features := ["a".toList], targets := ["y".toList], nSplits := 2,
                    exclusion := some ["x".toList] }
  let m : Table := ⟨demoRows, [demoCol "a" (some 5) (some 6) (some 7) (some 8),
      demoCol "x" (some 1) (some 0) (some 1) (some 1),
      demoCol "y" (some 1) (some 2) (some 3) (some 4)]⟩
  have key : (construct demoEnv a m >>= asDict demoEnv >>= fun x => fromDict demoEnv x.2 >>= fun u =>
      Except.ok (!(x.1.X.rows.contains "r2".toList) && u.X.rows.contains "r2".toList)) = .ok true := by
    decide +kernel
  cases hs : construct demoEnv a m with
  | error e => rw [hs] at key; cases key
  | ok s =>
    rw [hs] at key
    change (asDict demoEnv s >>= _) = _ at key
    cases ht : asDict demoEnv s with
    | error e => rw [ht] at key; cases key
    | ok x =>
      rw [ht] at key
      change (fromDict demoEnv x.2 >>= _) = _ at key
      cases hu : fromDict demoEnv x.2 with
      | error e => rw [hu] at key; cases key
      | ok u =>
        rw [hu] at key
        injection key with key
        simp only [Bool.and_eq_true, Bool.not_eq_true', List.contains_iff_mem] at key
        refine ⟨demoEnv, a, m, s, x.1, u, x.2, "r2".toList, demoEnv_shuffles, hs, ht, hu, ?_, key.2⟩
        have := key.1
        intro hmem
        rw [List.contains_iff_mem.mpr hmem] at this
        cases this

/-- C50 also fails for another impute strategy: the reloaded splitter imputes medians -/
theorem C50_impute_violated : ∃ (env : Env) (a : Args) (m : Table) (s t u : Splitter) (d : Saved) (n r : Str),
    a.exclusion = none ∧ construct env a m = .ok s ∧ asDict env s = .ok (t, d) ∧
    fromDict env d = .ok u ∧ cellOf t.X n r ≠ cellOf u.X n r := by
  let a : Args := { features := ["a".toList, "b".toList], targets := ["y".toList], nSplits := 2,
                    impute := .mean }
  let m : Table := ⟨demoRows, [demoCol "a" (some 0) (some 0) (some 9) none,
      demoCol "b" (some 1) (some 1) (some 1) (some 1),
      demoCol "y" (some 1) (some 2) (some 3) (some 4)]⟩
  have key : (construct demoEnv a m >>= asDict demoEnv >>= fun x => fromDict demoEnv x.2 >>= fun u =>
      Except.ok (decide (cellOf x.1.X "a".toList "r4".toList ≠ cellOf u.X "a".toList "r4".toList))) =
      .ok true := by
    decide +kernel
  cases hs : construct demoEnv a m with
  | error e => rw [hs] at key; cases key
  | ok s =>
    rw [hs] at key
    change (asDict demoEnv s >>= _) = _ at key
    cases ht : asDict demoEnv s with
    | error e => rw [ht] at key; cases key
    | ok x =>
      rw [ht] at key
      change (fromDict demoEnv x.2 >>= _) = _ at key
      cases hu : fromDict demoEnv x.2 with
      | error e => rw [hu] at key; cases key
      | ok u =>
        rw [hu] at key
        injection key with key
        rw [decide_eq_true_eq] at key
        exact ⟨demoEnv, a, m, s, x.1, u, x.2, _, _, rfl, hs, ht, hu, key⟩

end Beep.Props.Splitter
