import Verif.Proof.Features
/-
Theorems about featurizers and feature matrices: C45-C47.
-/
namespace Beep.Props.Features
open Beep Text Pandas Features Spec.Features Proof.Features

variable {HV V : Type}

/-! ### Rows, columns and cells (C45) -/

/-- C45: one row per file, each file once -/
theorem C45_rows (env : Env HV) (bfs : List (Source HV V)) (m : Matrix V)
    (h : matrix env bfs = .ok (some m)) :
    (m.rows.map Prod.fst).Nodup ∧
      (∀ f, f ∈ m.rows.map Prod.fst ↔ ∃ s ∈ bfs, s.path = some f) ∧
      ∀ r ∈ m.rows, r.2.length = m.columns.length := by
  obtain ⟨-, hj, -, rfl⟩ := (matrix_iff env bfs m).mp h
  simp only [List.map_map, Function.comp_def, List.map_id']
  refine ⟨nodup_unique _, ?_, ?_⟩
  · intro f
    rw [mem_unique, List.mem_map]
    constructor
    · rintro ⟨s, hs, rfl⟩
      obtain ⟨-, g, hg, -⟩ := hj s hs
      refine ⟨s, hs, ?_⟩
      unfold entryOf
      rw [hg]; rfl
    · rintro ⟨s, hs, hf⟩
      refine ⟨s, hs, ?_⟩
      unfold entryOf
      rw [hf]; rfl
  · intro r hr
    obtain ⟨f, -, rfl⟩ := List.mem_map.mp hr
    simp

/-- C45: a cell has a value exactly when one of the featurizers computed that feature on that file,
and then it is the computed value; every other cell is missing -/
theorem C45_cells (env : Env HV) (hd : Digest env) (bfs : List (Source HV V))
    (hg : ∀ s ∈ bfs, GoodSource s) (m : Matrix V) (h : matrix env bfs = .ok (some m))
    (f name : Str) (v : V) :
    cell m f name = some v ↔ ∃ s ∈ bfs, ∃ c, Has s f c v ∧ name = colName env s c := by
  obtain ⟨-, hj, hp, rfl⟩ := (matrix_iff env bfs m).mp h
  simp only []
  rw [cell_eq, Dict.get?_eq_some_iff (fileRow_WF env hd bfs hg hj hp f), mem_fileRow]
  constructor
  · rintro ⟨e, he, hf, hx⟩
    obtain ⟨s, hs, rfl⟩ := List.mem_map.mp he
    obtain ⟨-, g, hgp, -⟩ := hj s hs
    have : g = f := by
      unfold entryOf at hf
      rw [hgp] at hf
      exact hf
    subst this
    obtain ⟨c, hc⟩ := (mem_cellsOf env s g hgp (hj s hs) name v).mp hx
    exact ⟨s, hs, c, hc⟩
  · rintro ⟨s, hs, c, hc, hn⟩
    refine ⟨_, List.mem_map_of_mem hs, ?_, (mem_cellsOf env s f hc.1 (hj s hs) name v).mpr ⟨c, hc, hn⟩⟩
    unfold entryOf
    rw [hc.1]; rfl

/-- C45: the columns are the features of the featurizers, each once -/
theorem C45_columns (env : Env HV) (bfs : List (Source HV V)) (hg : ∀ s ∈ bfs, GoodSource s) (m : Matrix V)
    (h : matrix env bfs = .ok (some m)) :
    m.columns.Nodup ∧ ∀ name, name ∈ m.columns ↔
      ∃ s ∈ bfs, ∃ fr c, s.features = some fr ∧ c ∈ fr.columns ∧ name = colName env s c := by
  obtain ⟨-, hj, hp, rfl⟩ := (matrix_iff env bfs m).mp h
  simp only []
  refine ⟨nodup_unique _, ?_⟩
  intro name
  rw [mem_unique, List.mem_flatMap]
  constructor
  · rintro ⟨r, hr, hx⟩
    obtain ⟨f, hf, rfl⟩ := List.mem_map.mp hr
    obtain ⟨⟨n, v⟩, hv, rfl⟩ := List.mem_map.mp hx
    obtain ⟨e, he, hef, hx⟩ := (mem_fileRow _ _ _).mp hv
    obtain ⟨s, hs, rfl⟩ := List.mem_map.mp he
    obtain ⟨-, g, hgp, -⟩ := hj s hs
    obtain ⟨c, hc, hn⟩ := (mem_cellsOf env s g hgp (hj s hs) n v).mp hx
    obtain ⟨-, fr, row, i, h1, -, h2, -⟩ := hc
    exact ⟨s, hs, fr, c, h1, List.mem_of_getElem? h2, hn⟩
  · rintro ⟨s, hs, fr, c, hfr, hc, rfl⟩
    obtain ⟨⟨fr', row, hfr', hrow⟩, f, hf, -⟩ := hj s hs
    rw [hfr] at hfr'
    cases hfr'
    obtain ⟨-, hlen⟩ := (hg s hs).2.2 fr hfr
    obtain ⟨i, hi⟩ := List.mem_iff_getElem?.mp hc
    have hil : i < row.length := by
      rw [hlen row (by rw [hrow]; simp)]
      exact (List.getElem?_eq_some_iff.mp hi).1
    have hmem : (colName env s c, row[i]) ∈ cellsOf env s :=
      (mem_cellsOf env s f hf (hj s hs) _ _).mpr
        ⟨c, ⟨hf, fr, row, i, hfr, hrow, hi, List.getElem?_eq_getElem hil⟩, rfl⟩
    have hpath : (entryOf env s).1 = f := by
      unfold entryOf
      rw [hf]; rfl
    refine ⟨(f, fileRow (bfs.map (entryOf env)) f), ?_, ?_⟩
    · refine List.mem_map.mpr ⟨f, ?_, rfl⟩
      rw [mem_unique]
      exact List.mem_map.mpr ⟨entryOf env s, List.mem_map_of_mem hs, hpath⟩
    · exact List.mem_map.mpr ⟨_, (mem_fileRow _ _ _).mpr ⟨entryOf env s, List.mem_map_of_mem hs, hpath, hmem⟩, rfl⟩

/-- C45: column names tell apart feature, class and (up to the digest) hyperparameters -/
theorem C45_names (env : Env HV) (hd : Digest env) (s t : Source HV V) (hs : ':' ∉ s.cls) (ht : ':' ∉ t.cls)
    (c d : Str) : colName env s c = colName env t d ↔
      c = d ∧ s.cls = t.cls ∧ env.hash (paramStr env s.hyper) = env.hash (paramStr env t.hyper) := by
  constructor
  · intro h
    obtain ⟨h1, h2⟩ := colName_inj hd hs ht h
    exact ⟨h1, opId_inj hd hs ht h2⟩
  · rintro ⟨rfl, h1, h2⟩
    unfold colName opId
    rw [h1, h2]

/-- C45: the same feature twice is refused, wherever the two featurizers stand in the list -/
theorem C45_duplicates (env : Env HV) (pre mid post : List (Source HV V)) (s t : Source HV V)
    (hs : GoodSource s) (h : Shares s t) :
    ∃ e, matrix env (pre ++ s :: mid ++ t :: post) = .error e := by
  cases hm : matrix env (pre ++ s :: mid ++ t :: post) with
  | error e => exact ⟨e, rfl⟩
  | ok o =>
    exfalso
    cases o with
    | none =>
      unfold matrix at hm
      split at hm
      · rename_i h0; simp at h0
      · simp only [bind, Except.bind] at hm
        split at hm <;> cases hm
    | some m =>
      obtain ⟨-, hj, hp, -⟩ := (matrix_iff env _ m).mp hm
      rw [List.append_assoc, List.pairwise_append] at hp
      have hp := (List.pairwise_cons.mp hp.2.1).1 t (by simp)
      obtain ⟨h1, h2, h3, fs, ft, c, h4, h5, h6, h7⟩ := h
      obtain ⟨-, f, hf, -⟩ := hj s (by simp)
      have hop : opId env s = opId env t := by
        unfold opId
        rw [h2, paramStr_perm env hs.2.1 h3]
      apply hp (fileId env t f c)
      · unfold idsOf
        rw [h5, ← h1, hf]
        exact List.mem_map_of_mem h7
      · unfold idsOf
        rw [h4, hf]
        have : fileId env t f c = fileId env s f c := by unfold fileId; rw [hop]
        rw [this]
        exact List.mem_map_of_mem h6

/-- C45: everything else is joined: featurizers with one row of features on a named file, no two of
them with the same file, class, digest and feature -/
theorem C45_accepts (env : Env HV) (hd : Digest env) (bfs : List (Source HV V)) (hne : bfs ≠ [])
    (hg : ∀ s ∈ bfs, GoodSource s) (hj : ∀ s ∈ bfs, Joinable s)
    (hcol : ∀ s ∈ bfs, ∀ fr, s.features = some fr → ∀ c ∈ fr.columns, ':' ∉ c)
    (hp : bfs.Pairwise (fun s t => s.path = t.path → s.cls = t.cls →
      env.hash (paramStr env s.hyper) = env.hash (paramStr env t.hyper) →
      ∀ fs ft c, s.features = some fs → t.features = some ft → c ∈ fs.columns → c ∉ ft.columns)) :
    ∃ m, matrix env bfs = .ok (some m) := by
  refine ⟨_, (matrix_iff env bfs _).mpr ⟨hne, hj, ?_, rfl⟩⟩
  refine hp.imp_of_mem ?_
  intro s t hs ht hst c hc hc'
  unfold idsOf at hc hc'
  obtain ⟨⟨fs, -, hfs, -⟩, f, hf, -⟩ := hj s hs
  obtain ⟨⟨ft, -, hft, -⟩, g, hgp, -⟩ := hj t ht
  rw [hft, hgp] at hc
  rw [hfs, hf] at hc'
  obtain ⟨a, ha, rfl⟩ := List.mem_map.mp hc
  obtain ⟨b, hb, e⟩ := List.mem_map.mp hc'
  obtain ⟨rfl, e2, e3, rfl⟩ := fileId_inj hd (hg s hs).1 (hg t ht).1 (hcol s hs fs hfs b hb) (hcol t ht ft hft a ha) e
  exact hst (by rw [hf, hgp]) e2 e3 fs ft b hfs hft hb ha

/-- C45: a featurizer without features, with several rows or without a file is refused -/
theorem C45_refuses (env : Env HV) (bfs : List (Source HV V)) (s : Source HV V) (hs : s ∈ bfs)
    (h : ¬ Joinable s) (o : Option (Matrix V)) : matrix env bfs ≠ .ok o := by
  intro hm
  cases o with
  | none =>
    unfold matrix at hm
    cases bfs with
    | nil => simp at hs
    | cons a l =>
      simp only [bind, Except.bind] at hm
      split at hm <;> cases hm
  | some m =>
    obtain ⟨-, hj, -, -⟩ := (matrix_iff env _ m).mp hm
    exact h (hj s hs)

/-- text values and a (collision free) digest stand-in of 64 characters on the strings used below -/
private def env0 : Env Str := ⟨id, fun s => (s ++ List.replicate 64 '0').take 64⟩

private theorem env0_digest : Digest env0 := by intro x; simp [env0]

private def src (cls path c : String) (h : List (String × String)) (v : Nat) : Source Str Nat :=
  ⟨cls.toList, some path.toList, h.map (fun kv => (kv.1.toList, kv.2.toList)), some ⟨[c.toList], [[v]]⟩⟩

/-- C45 applies: two files, two classes; one cell is missing -/
example : ∃ m, matrix env0 [src "A" "f1" "x" [("n", "1")] 10, src "B" "f1" "y" [] 20, src "A" "f2" "x" [("n", "1")] 30] =
    .ok (some m) ∧ m.rows.map Prod.snd = [[some 10, some 20], [some 30, none]] := by
  obtain ⟨r, hr⟩ : ∃ r, r = matrix env0 [src "A" "f1" "x" [("n", "1")] 10, src "B" "f1" "y" [] 20,
    src "A" "f2" "x" [("n", "1")] 30] := ⟨_, rfl⟩
  have key : (r.toOption.bind id).map (fun m => m.rows.map Prod.snd) = some [[some 10, some 20], [some 30, none]] := by
    rw [hr]; decide +kernel
  match r, hr, key with
  | .ok (some m), hr, key => exact ⟨m, hr.symm, by simpa [Except.toOption] using key⟩

/-- C45 applies: the same feature twice is refused -/
example : Shares (src "A" "f1" "x" [("n", "1"), ("k", "2")] 10) (src "A" "f1" "x" [("k", "2"), ("n", "1")] 11) := by
  refine ⟨rfl, rfl, ?_, ⟨["x".toList], [[10]]⟩, ⟨["x".toList], [[11]]⟩, "x".toList, rfl, rfl, by simp, by simp⟩
  exact List.Perm.swap _ _ _

/-! ### Hyperparameters in column names (C46) -/

/-- C46, partial: dictionaries with the same keys that differ in a value give no common column, when
keys and written values contain no colon, values are told apart when written, and the digests of the two
texts differ.  Missing: other keys, other values. -/
theorem C46_distinct_partial (env : Env HV) (hd : Digest env) (s t : Source HV V)
    (hs : ':' ∉ s.cls) (ht : ':' ∉ t.cls) (ws : Dict.WF s.hyper) (wt : Dict.WF t.hyper)
    (hk : (Dict.keys s.hyper).Perm (Dict.keys t.hyper))
    (hcs : ∀ kv ∈ s.hyper, ':' ∉ kv.1 ∧ ':' ∉ env.render kv.2) (hct : ∀ kv ∈ t.hyper, ':' ∉ env.render kv.2)
    (hr : ∀ x ∈ s.hyper, ∀ y ∈ t.hyper, env.render x.2 = env.render y.2 → x.2 = y.2)
    (hh : env.hash (paramStr env s.hyper) = env.hash (paramStr env t.hyper) →
      paramStr env s.hyper = paramStr env t.hyper)
    (hdiff : ∃ k, Dict.get? s.hyper k ≠ Dict.get? t.hyper k) (c d : Str) :
    colName env s c ≠ colName env t d := by
  intro h
  obtain ⟨-, -, h2⟩ := (C45_names env hd s t hs ht c d).mp h
  have hp := hh h2
  unfold paramStr at hp
  have hkeys := keys_sorted hk
  have hv := params_inj env.render (sortedParams s.hyper) (sortedParams t.hyper) hkeys
    (fun kv h => hcs kv (mem_sortBy.mp h)) (fun kv h => hct kv (mem_sortBy.mp h)) hp
  have he : sortedParams s.hyper = sortedParams t.hyper :=
    dict_eq_of_maps env.render hkeys hv (fun x hx y hy => hr x (mem_sortBy.mp hx) y (mem_sortBy.mp hy))
  have hperm : s.hyper.Perm t.hyper := by
    have h1 : (sortedParams s.hyper).Perm s.hyper := sortBy_perm _ _
    have h2 : (sortedParams t.hyper).Perm t.hyper := sortBy_perm _ _
    rw [he] at h1
    exact h1.symm.trans h2
  obtain ⟨k, hk⟩ := hdiff
  exact hk (get?_perm ws hperm k)

/-- C46: the order of the entries does not matter -/
theorem C46_order (env : Env HV) (s t : Source HV V) (ws : Dict.WF s.hyper) (hc : s.cls = t.cls)
    (hp : s.hyper.Perm t.hyper) (c : Str) : colName env s c = colName env t c := by
  unfold colName opId
  rw [hc, paramStr_perm env ws hp]

/-- C46 is violated: two dictionaries with the same keys and different values share their columns,
whatever the digest -/
theorem C46_same_keys_violated (hash : Str → Str) (cls c : Str) :
    ∃ h h' : Dict Str Str, Dict.WF h ∧ Dict.WF h' ∧ Dict.keys h = Dict.keys h' ∧ h ≠ h' ∧
      colName ⟨id, hash⟩ (⟨cls, none, h, none⟩ : Source Str V) c =
        colName ⟨id, hash⟩ (⟨cls, none, h', none⟩ : Source Str V) c := by
  refine ⟨[("a".toList, "x-b:y".toList), ("b".toList, "z".toList)],
    [("a".toList, "x".toList), ("b".toList, "y-b:z".toList)], by decide, by decide, by decide, by decide, ?_⟩
  have : paramStr ⟨id, hash⟩ [("a".toList, "x-b:y".toList), ("b".toList, "z".toList)] =
      paramStr ⟨id, hash⟩ [("a".toList, "x".toList), ("b".toList, "y-b:z".toList)] := by
    simp [paramStr, sortedParams, sortBy, insertBy, strLe, join]
  unfold colName opId
  rw [this]

/-- C46 is violated: values written the same way, such as the number 1 and the text "1", are not told
apart -/
theorem C46_types_violated (env : Env HV) (cls c k : Str) (v w : HV) (h : env.render v = env.render w) :
    colName env (⟨cls, none, [(k, v)], none⟩ : Source HV V) c =
      colName env (⟨cls, none, [(k, w)], none⟩ : Source HV V) c := by
  simp [colName, opId, paramStr, sortedParams, sortBy, insertBy, h]

/-- C46 applies: hyperparameters that differ in one number -/
example : ∀ c d, colName env0 (src "A" "f" "x" [("n", "1"), ("k", "-2")] 0) c ≠
    colName env0 (src "A" "f" "x" [("n", "1"), ("k", "3")] 0) d := by
  refine C46_distinct_partial env0 env0_digest _ _ (by decide) (by decide) (by decide) (by decide) (List.Perm.refl _) (by decide)
    (by decide) (by intro x _ y _ h; exact h) ?_ ⟨"k".toList, by decide⟩
  intro h
  exact absurd h (by decide)

/-! ### Featurizer objects (C47) -/

variable {P M I : Type}

private theorem chooseHyper_ok (defaults : Dict Str HV) (hyper : Option (Dict Str HV)) :
    (∃ h, chooseHyper defaults hyper = .ok h) ↔
      (hyper = none ∨ hyper = some [] ∨ ∃ h, hyper = some h ∧ ∀ k ∈ Dict.keys defaults, k ∈ Dict.keys h) := by
  match hyper with
  | none => simp [chooseHyper]
  | some [] => simp [chooseHyper]
  | some (kv :: h) =>
    simp only [chooseHyper]
    by_cases hc : (Dict.keys defaults).all (fun k => Dict.has (kv :: h) k) = true
    · rw [if_pos hc]
      rw [List.all_eq_true] at hc
      simp only [Dict.has_iff] at hc
      simp only [reduceCtorEq, Option.some.injEq, false_or]
      exact ⟨fun _ => ⟨_, rfl, hc⟩, fun _ => ⟨_, rfl⟩⟩
    · rw [if_neg hc]
      rw [List.all_eq_true] at hc
      simp only [Dict.has_iff] at hc
      simp only [reduceCtorEq, exists_false, Option.some.injEq, false_or, false_iff]
      rintro ⟨h', rfl, h1⟩
      exact hc h1

/-- C47: construction succeeds exactly for a missing or structured datapath and with no
hyperparameters or all required ones -/
theorem C47_constructs (noP : P) (noM : M) (defaults : Dict Str HV) (dp : Option (Datapath P M I))
    (hyper : Option (Dict Str HV)) :
    (∃ bf : Featurizer HV V P M I, construct noP noM defaults dp hyper = .ok bf) ↔
      (hyper = none ∨ hyper = some [] ∨ ∃ h, hyper = some h ∧ ∀ k ∈ Dict.keys defaults, k ∈ Dict.keys h) ∧
      ∀ d, dp = some d → d.isStructured = true := by
  have hh := chooseHyper_ok defaults hyper
  unfold construct
  cases hc : chooseHyper defaults hyper with
  | error e =>
    have : ¬ ∃ h, chooseHyper defaults hyper = .ok h := by rw [hc]; simp
    rw [hh] at this
    simp only [bind, Except.bind, reduceCtorEq, exists_false, false_iff]
    exact fun h => this h.1
  | ok g =>
    have : ∃ h, chooseHyper defaults hyper = .ok h := ⟨g, hc⟩
    rw [hh] at this
    simp only [bind, Except.bind, this, true_and]
    cases dp with
    | none => simp
    | some d => cases hd : d.isStructured <;> simp [hd]

/-- C47: the hyperparameters used are the given ones, or the defaults when none are given; they always
contain every required one -/
theorem C47_hyperparameters (noP : P) (noM : M) (defaults : Dict Str HV) (dp : Option (Datapath P M I))
    (hyper : Option (Dict Str HV)) (bf : Featurizer HV V P M I)
    (h : construct noP noM defaults dp hyper = .ok bf) :
    (∀ g, hyper = some g → g ≠ [] → bf.hyperparameters = g) ∧
      (hyper = none ∨ hyper = some [] → bf.hyperparameters = defaults) ∧
      (∀ k ∈ Dict.keys defaults, k ∈ Dict.keys bf.hyperparameters) ∧
      bf.features = none ∧ bf.linkedId = dp.map (·.semiuniqueId) := by
  unfold construct at h
  simp only [bind, Except.bind] at h
  split at h
  · cases h
  rename_i g hg
  have hbf : bf.hyperparameters = g ∧ bf.features = none ∧ bf.linkedId = dp.map (·.semiuniqueId) := by
    split at h
    · cases h; exact ⟨rfl, rfl, rfl⟩
    · split at h
      · cases h; exact ⟨rfl, rfl, rfl⟩
      · cases h
  rw [hbf.1]
  refine ⟨?_, ?_, ?_, hbf.2⟩
  · intro g' hg' hne
    subst hg'
    cases g' with
    | nil => exact absurd rfl hne
    | cons a l =>
      simp only [chooseHyper] at hg
      split at hg
      · cases hg; rfl
      · cases hg
  · rintro (rfl | rfl) <;> · cases hg; rfl
  · match hyper, hg with
    | none, hg => cases hg; exact fun k h => h
    | some [], hg => cases hg; exact fun k h => h
    | some (a :: l), hg =>
      simp only [chooseHyper] at hg
      split at hg
      · rename_i hc
        cases hg
        rw [List.all_eq_true] at hc
        intro k hk
        exact Dict.has_iff.mp (hc k hk)
      · cases hg

/-- C47: only computed features can be saved -/
theorem C47_save (bf : Featurizer HV V P M I) :
    (∃ d, asDict bf = .ok d) ↔ bf.features ≠ none := by
  unfold asDict
  cases bf.features <;> simp

/-- C47: loading what was saved gives the features, hyperparameters, paths, metadata and link back -/
theorem C47_round_trip (noP : P) (noM : M) (defaults : Dict Str HV) (dp : Option (Datapath P M I))
    (hyper : Option (Dict Str HV)) (bf : Featurizer HV V P M I)
    (h : construct noP noM defaults dp hyper = .ok bf) (f : Frame V) (hf : GoodFrame f)
    (hc : f.columns ≠ []) :
    ∃ d bf', asDict { bf with features := some f } = .ok d ∧ fromDict noP noM defaults d = .ok bf' ∧
      bf'.features = some f ∧ bf'.hyperparameters = bf.hyperparameters ∧ bf'.paths = bf.paths ∧
      bf'.metadata = bf.metadata ∧ bf'.linkedId = bf.linkedId := by
  have hreq := (C47_hyperparameters noP noM defaults dp hyper bf h).2.2.1
  have hch : chooseHyper defaults (some bf.hyperparameters) = .ok bf.hyperparameters := by
    cases hb : bf.hyperparameters with
    | nil =>
      rw [hb] at hreq
      have : defaults = [] := by
        cases defaults with
        | nil => rfl
        | cons a l => exact absurd (hreq a.1 (by simp [Dict.keys])) (by simp [Dict.keys])
      rw [this]; rfl
    | cons a l =>
      simp only [chooseHyper]
      rw [if_pos]
      rw [List.all_eq_true]
      intro k hk
      rw [← hb]
      exact Dict.has_iff.mpr (hreq k hk)
  refine ⟨_, ⟨bf.hyperparameters, none, some f, bf.paths, bf.metadata, bf.linkedId⟩, rfl, ?_, rfl, rfl, rfl, rfl, rfl⟩
  unfold fromDict construct
  simp only [bind, Except.bind, hch]
  rw [ofColumns_toColumns f hf hc]

/-- C47 applies: two required hyperparameters -/
example : ∃ bf : Featurizer Nat Nat Unit Unit Nat,
    construct () () [("a".toList, 1), ("b".toList, 2)] (some ⟨true, (), (), 5⟩)
      (some [("b".toList, 7), ("a".toList, 8)]) = .ok bf ∧ bf.hyperparameters = [("b".toList, 7), ("a".toList, 8)] :=
  ⟨_, rfl, rfl⟩

example : (construct () () [("a".toList, 1), ("b".toList, 2)] (none : Option (Datapath Unit Unit Nat))
    (some [("b".toList, 7)]) : Except Err (Featurizer Nat Nat Unit Unit Nat)) = .error .beepError := rfl

example : GoodFrame (⟨["x".toList, "y".toList], [[1, 2], [3, 4]]⟩ : Frame Nat) := by
  refine ⟨by decide, by decide⟩

end Beep.Props.Features
