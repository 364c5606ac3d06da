import Verif.Spec.MatrixFile
import Verif.Proof.Features
/-
Lemmas about saved feature matrices.
-/
namespace Beep.MatrixFile
open Beep Text Features Spec.Features Spec.MatrixFile

variable {V : Type}

theorem jsonAll_eq (xs : List Value) : jsonAll xs = xs.map json := by
  induction xs with
  | nil => rw [jsonAll]; rfl
  | cons x xs ih => rw [jsonAll, ih, List.map_cons]

theorem json_plain {v : Value} (h : Plain v) : json v = v := by
  induction h with
  | none => rw [json] <;> intros <;> simp_all
  | bool b => rw [json] <;> intros <;> simp_all
  | num s => rw [json] <;> intros <;> simp_all
  | text s => rw [json] <;> intros <;> simp_all
  | list xs _ ih =>
    rw [json, jsonAll_eq]
    congr 1
    conv => rhs; rw [← List.map_id xs]
    exact List.map_congr_left (fun x hx => ih x hx)

mutual
theorem plain_json : ∀ v, Plain (json v)
  | .none => by rw [json] <;> first | exact .none | (intros; simp_all)
  | .bool b => by rw [json] <;> first | exact .bool b | (intros; simp_all)
  | .num s => by rw [json] <;> first | exact .num s | (intros; simp_all)
  | .text s => by rw [json] <;> first | exact .text s | (intros; simp_all)
  | .list xs => by rw [json]; exact .list _ (plain_jsonAll xs)
  | .tuple xs => by rw [json]; exact .list _ (plain_jsonAll xs)
theorem plain_jsonAll : ∀ xs, ∀ x ∈ jsonAll xs, Plain x
  | [] => by rw [jsonAll]; simp
  | y :: ys => by
    rw [jsonAll]
    intro x hx
    rcases List.mem_cons.mp hx with rfl | hx
    · exact plain_json y
    · exact plain_jsonAll ys x hx
end

/-- a dictionary after the trip through the file -/
def jsonDict (d : Dict Str Value) : Dict Str Value := d.map (fun kv => (kv.1, json kv.2))

theorem keys_jsonDict (d : Dict Str Value) : Dict.keys (jsonDict d) = Dict.keys d := by
  unfold Dict.keys jsonDict
  rw [List.map_map]
  rfl

theorem jsonDict_plain {d : Dict Str Value} (h : ∀ kv ∈ d, Plain kv.2) : jsonDict d = d := by
  unfold jsonDict
  conv => rhs; rw [← List.map_id d]
  exact List.map_congr_left (fun kv hkv => by rw [json_plain (h kv hkv)]; rfl)

/-- the featurizer that is loaded -/
def reloaded (b : Made V) : Made V :=
  ⟨b.cls, ⟨jsonDict b.obj.hyperparameters, none, b.obj.features, b.obj.paths, jsonDict b.obj.metadata, b.obj.linkedId⟩⟩

/-- the featurizer that is saved -/
def savedOf (b : Made V) (fr : Frame V) : SavedMade V :=
  ⟨b.cls, ⟨toColumns fr, b.obj.hyperparameters, b.obj.paths, b.obj.metadata, b.obj.linkedId⟩⟩

theorem asDict_some {b : Made V} {fr : Frame V} (h : b.obj.features = some fr) :
    asDict b.obj = .ok (savedOf b fr).saved := by
  unfold asDict
  rw [h]
  rfl

theorem chooseHyper_has {defaults h : Dict Str Value} (hk : ∀ k ∈ Dict.keys defaults, k ∈ Dict.keys h) :
    chooseHyper defaults (some h) = .ok h := by
  cases h with
  | nil =>
    cases defaults with
    | nil => rfl
    | cons a l => exact absurd (hk a.1 (by simp [Dict.keys])) (by simp [Dict.keys])
  | cons a l =>
    simp only [chooseHyper]
    rw [if_pos]
    rw [List.all_eq_true]
    intro k hk'
    exact Dict.has_iff.mpr (hk k hk')

theorem loadMade_file {classes : Str → Option (Dict Str Value)} {b : Made V} {fr : Frame V}
    (hc : ∃ defaults, classes b.cls = some defaults ∧ ∀ k ∈ Dict.keys defaults, k ∈ Dict.keys b.obj.hyperparameters)
    (hf : b.obj.features = some fr) (hg : GoodFrame fr) (hne : fr.columns ≠ []) :
    loadMade classes (fileMade (savedOf b fr)) = .ok (reloaded b) := by
  obtain ⟨defaults, h1, h2⟩ := hc
  unfold loadMade
  have e : (fileMade (savedOf b fr)).cls = b.cls := rfl
  rw [e, h1]
  simp only
  have hch : chooseHyper defaults (some (jsonDict b.obj.hyperparameters)) = .ok (jsonDict b.obj.hyperparameters) :=
    chooseHyper_has (by rw [keys_jsonDict]; exact h2)
  have hfd : fromDict [] [] defaults (fileMade (savedOf b fr)).saved = .ok (reloaded b).obj := by
    unfold fromDict construct
    have e2 : (fileMade (savedOf b fr)).saved.hyperparameters = jsonDict b.obj.hyperparameters := rfl
    have e3 : (fileMade (savedOf b fr)).saved.features = toColumns fr := rfl
    simp only [bind, Except.bind, e2, hch, e3, Proof.Features.ofColumns_toColumns fr hg hne]
    unfold reloaded
    rw [hf]
    rfl
  rw [hfd]
  rfl

/-- every saved list of proper featurizers is loaded -/
theorem loadAll_file {classes : Str → Option (Dict Str Value)} : ∀ {bs : List (Made V)}, (∀ b ∈ bs, Proper classes b) →
    ∃ ds, asDicts bs = .ok ds ∧ loadAll classes (ds.map fileMade) = .ok (bs.map reloaded)
  | [], _ => ⟨[], rfl, rfl⟩
  | b :: bs, h => by
    obtain ⟨ds, h1, h2⟩ := loadAll_file (classes := classes) (bs := bs) (fun c hc => h c (List.mem_cons_of_mem _ hc))
    obtain ⟨hc, fr, hf, hg, hne⟩ := h b (List.mem_cons_self ..)
    refine ⟨savedOf b fr :: ds, ?_, ?_⟩
    · rw [asDicts, asDict_some hf]
      simp only [h1]
      rfl
    · rw [List.map_cons, loadAll, loadMade_file hc hf hg hne]
      simp only [h2, List.map_cons]

/-- saving and loading builds the matrix again from the reloaded featurizers -/
theorem saveAndLoad_eq {hash : Str → Str} {classes : Str → Option (Dict Str Value)} {fm : FeatureMatrix V} {m : Matrix V}
    (hm : fm.matrix = some m) (h : ∀ b ∈ fm.featurizers, Proper classes b) :
    saveAndLoad hash classes fm = build hash (fm.featurizers.map reloaded) := by
  obtain ⟨ds, h1, h2⟩ := loadAll_file h
  unfold saveAndLoad save
  rw [h1, hm]
  simp only [throughFile]
  unfold load
  rw [h2]

theorem build_iff {hash : Str → Str} {bfs : List (Made V)} {fm : FeatureMatrix V} :
    build hash bfs = .ok fm ↔ fm.featurizers = bfs ∧ matrix (env hash) (bfs.map source) = .ok fm.matrix := by
  unfold build
  cases h : matrix (env hash) (bfs.map source) with
  | error e => simp
  | ok m =>
    obtain ⟨fs, m'⟩ := fm
    simp only [Except.ok.injEq, FeatureMatrix.mk.injEq]
    constructor <;> rintro ⟨a, b⟩ <;> exact ⟨a.symm, b⟩

theorem matrix_some {HV : Type} {env : Env HV} {bfs : List (Source HV V)} {o : Option (Matrix V)} (hne : bfs ≠ [])
    (h : matrix env bfs = .ok o) : ∃ m, o = some m := by
  cases bfs with
  | nil => exact absurd rfl hne
  | cons a l =>
    unfold matrix at h
    simp only [bind, Except.bind] at h
    split at h
    · cases h
    · cases h; exact ⟨_, rfl⟩

theorem source_reloaded {b : Made V} (h : ∀ kv ∈ b.obj.hyperparameters, Plain kv.2) : source (reloaded b) = source b := by
  unfold source reloaded
  rw [jsonDict_plain h]

end Beep.MatrixFile
