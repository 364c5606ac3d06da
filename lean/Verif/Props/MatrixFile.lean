import Verif.Proof.MatrixFile
import Verif.Props.Features
/-
C179: a saved feature matrix loads as the matrix it was.
-/
namespace Beep.MatrixFile
open Beep Text Features Spec.Features Spec.MatrixFile Props.Features

variable {V : Type}

/-- C179, partial: a matrix of at least one featurizer, with no tuple among the hyperparameters: saving
and loading gives the same rows, columns and cells, made of the same featurizers in the same order. -/
theorem C179_loads_partial {hash : Str → Str} {classes : Str → Option (Dict Str Value)} {bfs : List (Made V)}
    {fm : FeatureMatrix V} (h : build hash bfs = .ok fm) (hne : bfs ≠ []) (hp : ∀ b ∈ bfs, Proper classes b)
    (hh : ∀ b ∈ bfs, ∀ kv ∈ b.obj.hyperparameters, Plain kv.2) :
    ∃ fm', saveAndLoad hash classes fm = .ok fm' ∧ fm'.matrix = fm.matrix ∧
      List.Forall₂ (fun a b => Same a b ∧ ((∀ kv ∈ a.obj.metadata, Plain kv.2) → b.obj.metadata = a.obj.metadata))
        bfs fm'.featurizers := by
  obtain ⟨hf, hm⟩ := build_iff.mp h
  obtain ⟨m, em⟩ := matrix_some (by simpa using hne) hm
  have e : (bfs.map reloaded).map source = bfs.map source := by
    rw [List.map_map]
    exact List.map_congr_left (fun b hb => source_reloaded (hh b hb))
  refine ⟨⟨bfs.map reloaded, fm.matrix⟩, ?_, rfl, ?_⟩
  · rw [saveAndLoad_eq em (by rw [hf]; exact hp), hf]
    exact build_iff.mpr ⟨rfl, by rw [e]; exact hm⟩
  · rw [List.forall₂_map_right_iff]
    refine List.forall₂_same.mpr (fun b hb => ⟨⟨rfl, rfl, ?_, rfl, rfl⟩, fun hmeta => jsonDict_plain hmeta⟩)
    exact jsonDict_plain (hh b hb)

/-- C179 fails for the matrix of no featurizers: it can be made and not saved. -/
theorem C179_empty_violated (hash : Str → Str) (classes : Str → Option (Dict Str Value)) :
    build hash ([] : List (Made V)) = .ok ⟨[], none⟩ ∧
      saveAndLoad hash classes (⟨[], none⟩ : FeatureMatrix V) = .error .attributeError := ⟨rfl, rfl⟩

/-- a featurizer with a single hyperparameter -/
def single (cls file key : Str) (v : Value) (fr : Frame V) : Made V :=
  ⟨cls, ⟨[(key, v)], none, some fr, [("structured".toList, file)], [], none⟩⟩

theorem single_proper {classes : Str → Option (Dict Str Value)} {cls file key : Str} {v : Value} {fr : Frame V}
    (hc : ∃ defaults, classes cls = some defaults ∧ ∀ k ∈ Dict.keys defaults, k = key) (hfr : GoodFrame fr)
    (hcol : fr.columns ≠ []) : Proper classes (single cls file key v fr) := by
  obtain ⟨defaults, h1, h2⟩ := hc
  exact ⟨⟨defaults, h1, fun k hk => by rw [h2 k hk]; simp [Dict.keys, single]⟩, fr, rfl, hfr, hcol⟩

/-- C179 fails when a hyperparameter is a tuple: the matrix that is loaded has none of the columns of the
one that was saved (for every digest that tells the tuple from the list). -/
theorem C179_tuple_violated {hash : Str → Str} (hd : ∀ x, (hash x).length = 64)
    {classes : Str → Option (Dict Str Value)} {cls file key : Str} {xs : List Value} {fr : Frame V} {row : List V}
    (hcls : ':' ∉ cls) (hfile : file ≠ []) (hfr : GoodFrame fr) (hrow : fr.rows = [row]) (hcol : fr.columns ≠ [])
    (hc : ∃ defaults, classes cls = some defaults ∧ ∀ k ∈ Dict.keys defaults, k = key)
    (hx : hash (key ++ ':' :: repr (.tuple xs)) ≠ hash (key ++ ':' :: repr (json (.tuple xs)))) :
    ∃ fm m fm' m', build hash [single cls file key (.tuple xs) fr] = .ok fm ∧ fm.matrix = some m ∧
      saveAndLoad hash classes fm = .ok fm' ∧ fm'.matrix = some m' ∧
      m.columns ≠ [] ∧ m'.columns ≠ [] ∧ ∀ c ∈ m'.columns, c ∉ m.columns := by
  have hgood : ∀ v, GoodSource (source (single cls file key v fr)) := fun v =>
    ⟨hcls, by simp [Dict.WF, Dict.keys, source, single], fun fr' e => by
      have : fr = fr' := Option.some.inj e
      exact this ▸ hfr⟩
  have hbuild : ∀ b : Made V, (∃ v, source b = source (single cls file key v fr)) →
      ∃ m, matrix (env hash) [source b] = .ok (some m) := by
    rintro b ⟨v, e⟩
    refine ⟨_, (Proof.Features.matrix_iff (env hash) [source b] _).mpr ⟨by simp, ?_, by simp, rfl⟩⟩
    intro s hs
    rw [List.mem_singleton.mp hs, e]
    exact ⟨⟨fr, row, rfl, hrow⟩, file, rfl, hfile⟩
  obtain ⟨m, hm⟩ := hbuild (single cls file key (.tuple xs) fr) ⟨_, rfl⟩
  have er : source (reloaded (single cls file key (.tuple xs) fr)) = source (single cls file key (json (.tuple xs)) fr) := rfl
  obtain ⟨m', hm'⟩ := hbuild (reloaded (single cls file key (.tuple xs) fr)) ⟨_, er⟩
  have hcols := C45_columns (env hash) [source (single cls file key (.tuple xs) fr)]
    (fun s hs => by rw [List.mem_singleton.mp hs]; exact hgood _) m hm
  have hcols' := C45_columns (env hash) [source (reloaded (single cls file key (.tuple xs) fr))]
    (fun s hs => by rw [List.mem_singleton.mp hs, er]; exact hgood _) m' hm'
  obtain ⟨c0, hc0⟩ := List.exists_mem_of_ne_nil _ hcol
  refine ⟨⟨[single cls file key (.tuple xs) fr], some m⟩, m, ⟨[reloaded (single cls file key (.tuple xs) fr)], some m'⟩, m',
    build_iff.mpr ⟨rfl, hm⟩, rfl, ?_, rfl, ?_, ?_, ?_⟩
  · rw [saveAndLoad_eq (m := m) rfl]
    · exact build_iff.mpr ⟨rfl, hm'⟩
    · intro b hb
      rw [List.mem_singleton.mp hb]
      exact single_proper hc hfr hcol
  · exact List.ne_nil_of_mem ((hcols.2 _).mpr ⟨_, List.mem_singleton.mpr rfl, fr, c0, rfl, hc0, rfl⟩)
  · exact List.ne_nil_of_mem ((hcols'.2 _).mpr ⟨_, List.mem_singleton.mpr rfl, fr, c0, rfl, hc0, rfl⟩)
  · intro c hcm hcm2
    obtain ⟨s, hs, _, d, _, _, rfl⟩ := (hcols'.2 _).mp hcm
    obtain ⟨t, ht, _, d', _, _, e⟩ := (hcols.2 _).mp hcm2
    rw [List.mem_singleton.mp hs, List.mem_singleton.mp ht] at e
    exact hx ((C45_names (env hash) hd _ _ hcls hcls _ _).mp e).2.2.symm

/-- C179 fails when two featurizers of a class differ only in that a hyperparameter of the one is a tuple
and that of the other the list of the same entries: their matrix is made, and refused when it is loaded. -/
theorem C179_refused_violated {hash : Str → Str} (hd : ∀ x, (hash x).length = 64)
    {classes : Str → Option (Dict Str Value)} {cls file key : Str} {xs : List Value} {fr : Frame V} {row : List V}
    (hcls : ':' ∉ cls) (hfile : file ≠ []) (hfr : GoodFrame fr) (hrow : fr.rows = [row]) (hcol : fr.columns ≠ [])
    (hcc : ∀ c ∈ fr.columns, ':' ∉ c) (hc : ∃ defaults, classes cls = some defaults ∧ ∀ k ∈ Dict.keys defaults, k = key)
    (hx : hash (key ++ ':' :: repr (.tuple xs)) ≠ hash (key ++ ':' :: repr (json (.tuple xs)))) :
    ∃ fm e, build hash [single cls file key (.tuple xs) fr, single cls file key (json (.tuple xs)) fr] = .ok fm ∧
      saveAndLoad hash classes fm = .error e := by
  have hgood : ∀ v, GoodSource (source (single cls file key v fr)) := fun v =>
    ⟨hcls, by simp [Dict.WF, Dict.keys, source, single], fun fr' e => by
      have : fr = fr' := Option.some.inj e
      exact this ▸ hfr⟩
  have hjoin : ∀ v, Joinable (source (single cls file key v fr)) := fun v =>
    ⟨⟨fr, row, rfl, hrow⟩, file, rfl, hfile⟩
  obtain ⟨m, hm⟩ := C45_accepts (env hash) hd
    [source (single cls file key (.tuple xs) fr), source (single cls file key (json (.tuple xs)) fr)] (by simp)
    (by simp only [List.forall_mem_cons]; exact ⟨hgood _, hgood _, by simp⟩)
    (by simp only [List.forall_mem_cons]; exact ⟨hjoin _, hjoin _, by simp⟩)
    (by
      have h0 : ∀ v fr', (source (single cls file key v fr)).features = some fr' → ∀ c ∈ fr'.columns, ':' ∉ c := by
        intro v fr' e
        have : fr = fr' := Option.some.inj e
        exact this ▸ hcc
      simp only [List.forall_mem_cons]
      exact ⟨h0 _, h0 _, by simp⟩)
    (by
      simp only [List.pairwise_cons, List.mem_singleton, forall_eq]
      exact ⟨fun _ _ h => absurd h hx, by simp⟩)
  have hb : build hash [single cls file key (.tuple xs) fr, single cls file key (json (.tuple xs)) fr] =
      .ok ⟨[single cls file key (.tuple xs) fr, single cls file key (json (.tuple xs)) fr], some m⟩ := build_iff.mpr ⟨rfl, hm⟩
  have es : source (reloaded (single cls file key (json (.tuple xs)) fr)) = source (single cls file key (json (.tuple xs)) fr) := by
    refine source_reloaded ?_
    intro kv hkv
    rw [List.mem_singleton.mp hkv]
    exact plain_json _
  obtain ⟨c0, hc0⟩ := List.exists_mem_of_ne_nil _ hcol
  obtain ⟨e, he⟩ := C45_duplicates (env hash) [] [] [] (source (single cls file key (json (.tuple xs)) fr))
    (source (single cls file key (json (.tuple xs)) fr)) (hgood _) ⟨rfl, rfl, List.Perm.refl _, fr, fr, c0, rfl, rfl, hc0, hc0⟩
  refine ⟨_, e, hb, ?_⟩
  rw [saveAndLoad_eq (m := m) rfl]
  · have em : [single cls file key (.tuple xs) fr, single cls file key (json (.tuple xs)) fr].map reloaded =
        [reloaded (single cls file key (.tuple xs) fr), reloaded (single cls file key (json (.tuple xs)) fr)] := rfl
    have er : source (reloaded (single cls file key (.tuple xs) fr)) = source (single cls file key (json (.tuple xs)) fr) := rfl
    simp only [List.nil_append, List.cons_append] at he
    unfold build
    simp only [em, List.map_cons, List.map_nil, er, es, he]
  · simp only [List.forall_mem_cons]
    exact ⟨single_proper hc hfr hcol, single_proper hc hfr hcol, by simp⟩

/-! ### The hypotheses can be met -/

/-- a stand-in for the digest, of 64 characters -/
def exHash (s : Str) : Str := (s ++ List.replicate 64 '0').take 64

/-- a featurizer with a list, a number and a text among its hyperparameters -/
def exMade : Made Nat :=
  ⟨"Stats".toList, ⟨[("window".toList, .list [.num "0".toList, .num "8".toList]), ("statistic".toList, .text "mean".toList)],
    none, some ⟨["a".toList, "b".toList], [[1, 2]]⟩, [("structured".toList, "run1.json".toList)],
    [("channel".toList, .num "3".toList)], some "id1".toList⟩⟩

/-- a class with one required hyperparameter -/
def exClasses (c : Str) : Option (Dict Str Value) :=
  if c = "Stats".toList then some [("window".toList, .none)] else none

example : ∃ fm, build exHash [exMade] = .ok fm ∧ Proper exClasses exMade ∧ ∀ kv ∈ exMade.obj.hyperparameters, Plain kv.2 := by
  refine ⟨_, rfl, ⟨⟨_, rfl, by decide⟩, _, rfl, ⟨by decide, by decide⟩, by decide⟩, ?_⟩
  unfold exMade
  simp only [List.forall_mem_cons]
  refine ⟨.list _ ?_, .text _, by simp⟩
  simp only [List.forall_mem_cons]
  exact ⟨.num _, .num _, by simp⟩

example : (∀ x, (exHash x).length = 64) ∧
    exHash ("window".toList ++ ':' :: repr (.tuple [.num "0".toList, .num "8".toList])) ≠
      exHash ("window".toList ++ ':' :: repr (json (.tuple [.num "0".toList, .num "8".toList]))) := by
  refine ⟨fun x => by simp [exHash], ?_⟩
  simp [exHash, repr, reprAll, json, jsonAll, join]

end Beep.MatrixFile
