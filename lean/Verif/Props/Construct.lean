import Verif.Proof.Datapath
/-
C125: what the constructor of a datapath makes and what it refuses.
-/
namespace Beep.Props.Construct
open Beep Beep.Datapath

/-- the file with the rules that a schema name stands for: the path itself, or in the directory of
schemas, or the last part of the path in that directory -/
inductive SchemaFile (env : Env) (s : String) : String → Prop
  | absolute : env.isAbs s = true → env.fileExists s = true → SchemaFile env s s
  | relative : env.isAbs s = false → env.fileExists (env.inSchemaDir s) = true → SchemaFile env s (env.inSchemaDir s)
  | moved : (env.isAbs s = true → env.fileExists s = false) →
      (env.isAbs s = false → env.fileExists (env.inSchemaDir s) = false) →
      env.fileExists (env.inSchemaDir (env.baseName s)) = true →
      SchemaFile env s (env.inSchemaDir (env.baseName s))

theorem resolve_iff (env : Env) (s : String) (hs : s ≠ "") (f : Option String) :
    resolveSchema env (some s) = .ok f ↔ ∃ g, f = some g ∧ SchemaFile env s g := by
  unfold resolveSchema
  simp only [hs, if_false]
  constructor
  · intro h
    by_cases ha : env.isAbs s = true
    · rw [if_pos ha] at h
      split at h
      · rename_i he; cases h; exact ⟨_, rfl, .absolute ha he⟩
      · rename_i he
        split at h
        · rename_i he2; cases h
          exact ⟨_, rfl, .moved (fun _ => by simpa using he) (fun h => by rw [ha] at h; cases h) he2⟩
        · cases h
    · rw [if_neg ha] at h
      split at h
      · rename_i he; cases h; exact ⟨_, rfl, .relative (by simpa using ha) he⟩
      · rename_i he
        split at h
        · rename_i he2; cases h
          exact ⟨_, rfl, .moved (fun h => absurd h ha) (fun _ => by simpa using he) he2⟩
        · cases h
  · rintro ⟨g, rfl, h⟩
    cases h with
    | absolute h1 h2 => simp [h1, h2]
    | relative h1 h2 => simp [h1, h2]
    | moved h1 h2 h3 =>
      cases ha : env.isAbs s with
      | true => simp [h1 ha, h3]
      | false => simp [h2 ha, h3]

theorem imputeCol_get (f : Frame) (c c' : String) :
    (imputeCol f c).index = f.index ∧ (imputeCol f c).cols.get? c' =
      (match f.cols.get? c' with
       | some v => some v
       | none => if c' = c then some (List.replicate f.index.length Val.nan) else none) := by
  unfold imputeCol
  split
  · rename_i h
    refine ⟨rfl, ?_⟩
    cases hg : f.cols.get? c' with
    | some v => rfl
    | none =>
      simp only
      rw [if_neg]
      rintro rfl
      rw [Dict.has_iff] at h
      exact (Dict.get?_eq_none_iff.mp hg) h
  · rename_i h
    refine ⟨rfl, ?_⟩
    simp only
    by_cases e : c' = c
    · subst e
      have hn : f.cols.get? c' = none := by
        rw [Dict.get?_eq_none_iff]
        intro hm
        exact h (Dict.has_iff.mpr hm)
      rw [Dict.get?_set_self, hn, if_pos rfl]
      simp [List.map_const']
    · rw [Dict.get?_set_ne _ _ e, if_neg e]
      cases f.cols.get? c' <;> rfl

/-- C125: a datapath holds the metadata and the paths it was given, and its schema is a file that
exists.  Raw data keep their rows and columns; columns for the temperature and the internal
resistance are added, without values, where they are missing (unless this is switched off).  A new datapath is
not structured. -/
theorem C125_made (env : Env) (raw : Option Frame) (metadata : Dict String Val) (paths : Dict String (Option String))
    (schema : Option String) (imp : Bool) (d : Datapath) (h : construct env raw metadata paths schema imp = .ok d) :
    d.metadata = metadata ∧ d.paths = (if paths = [] then [("raw", none)] else paths) ∧
    (∀ s, schema = some s → s ≠ "" → ∃ g, d.schema = some g ∧ SchemaFile env s g) ∧
    (schema = none ∨ schema = some "" → d.schema = schema) ∧
    isStructured d = false ∧ d.legacy = false ∧ d.diagnostic = none ∧ d.params = [] ∧
    (imp = false → d.raw = raw) ∧ (raw = none → d.raw = none) ∧
    (imp = true → ∀ f, raw = some f → ∃ g, d.raw = some g ∧ g.index = f.index ∧ ∀ c, g.cols.get? c =
      (match f.cols.get? c with
       | some v => some v
       | none => if c = "temperature" ∨ c = "internal_resistance" then some (List.replicate f.index.length Val.nan)
          else none)) := by
  unfold construct at h
  simp only [bind, Except.bind] at h
  cases hp : checkPaths env paths with
  | error e => rw [hp] at h; cases h
  | ok p =>
    rw [hp] at h
    simp only at h
    cases hs : resolveSchema env schema with
    | error e => rw [hs] at h; cases h
    | ok s' =>
      rw [hs] at h
      cases h
      refine ⟨rfl, ?_, ?_, ?_, rfl, rfl, rfl, rfl, ?_, ?_, ?_⟩
      · unfold checkPaths at hp
        cases paths with
        | nil => cases hp; rfl
        | cons a l =>
          rw [if_neg (by simp)] at hp
          split at hp
          · cases hp
          · cases hp; rfl
      · rintro s rfl hne
        exact (resolve_iff env s hne s').mp hs
      · rintro (rfl | rfl)
        · cases hs; rfl
        · simp [resolveSchema] at hs; exact hs.symm
      · rintro rfl; rfl
      · rintro rfl; cases imp <;> rfl
      · rintro rfl f rfl
        refine ⟨impute f, rfl, ?_, ?_⟩
        · rw [impute, imputable]
          simp only [List.foldl_cons, List.foldl_nil]
          rw [(imputeCol_get _ _ "").1, (imputeCol_get _ _ "").1]
        · intro c
          rw [impute, imputable]
          simp only [List.foldl_cons, List.foldl_nil]
          rw [(imputeCol_get _ _ c).2, (imputeCol_get _ _ c).2, (imputeCol_get _ _ c).1]
          cases f.cols.get? c with
          | some v => rfl
          | none =>
            by_cases e1 : c = "temperature"
            · simp [e1]
            · simp [e1]

/-- C125: exactly the arguments with absolute paths and an existing schema are accepted -/
theorem C125_accepted (env : Env) (raw : Option Frame) (metadata : Dict String Val) (paths : Dict String (Option String))
    (schema : Option String) (imp : Bool) :
    (∃ d, construct env raw metadata paths schema imp = .ok d) ↔
      (∀ k p, (k, some p) ∈ paths → p ≠ "" → env.isAbs p = true) ∧
      ∀ s, schema = some s → s ≠ "" → ∃ g, SchemaFile env s g := by
  have hpaths : (∃ p, checkPaths env paths = .ok p) ↔ ∀ k p, (k, some p) ∈ paths → p ≠ "" → env.isAbs p = true := by
    unfold checkPaths
    cases paths with
    | nil => simp
    | cons a l =>
      rw [if_neg (by simp)]
      split
      · rename_i h
        refine ⟨fun ⟨_, h⟩ => (nomatch h), fun hall => ?_⟩
        rw [List.any_eq_true] at h
        obtain ⟨⟨k, p⟩, hm, hp⟩ := h
        cases p with
        | none => simp at hp
        | some p =>
          simp only [Bool.and_eq_true, Bool.not_eq_true', ne_eq, decide_eq_true_eq] at hp
          rw [hall k p hm hp.1] at hp
          exact absurd hp.2 (by simp)
      · rename_i h
        refine ⟨fun _ k p hm hne => ?_, fun _ => ⟨_, rfl⟩⟩
        by_contra hc
        apply h
        rw [List.any_eq_true]
        exact ⟨_, hm, by simp [hne, hc]⟩
  have hschema : (∃ f, resolveSchema env schema = .ok f) ↔ ∀ s, schema = some s → s ≠ "" → ∃ g, SchemaFile env s g := by
    cases schema with
    | none => simp [resolveSchema]
    | some s =>
      by_cases e : s = ""
      · subst e; simp [resolveSchema]
      · constructor
        · rintro ⟨f, hf⟩ s' h1 _
          cases h1
          obtain ⟨g, _, hg⟩ := (resolve_iff env s e f).mp hf
          exact ⟨g, hg⟩
        · intro h
          obtain ⟨g, hg⟩ := h s rfl e
          exact ⟨some g, (resolve_iff env s e _).mpr ⟨g, rfl, hg⟩⟩
  rw [← hpaths, ← hschema]
  unfold construct
  simp only [bind, Except.bind]
  constructor
  · rintro ⟨d, h⟩
    cases hp : checkPaths env paths with
    | error e => rw [hp] at h; cases h
    | ok p =>
      rw [hp] at h
      simp only at h
      cases hs : resolveSchema env schema with
      | error e => rw [hs] at h; cases h
      | ok s' => exact ⟨⟨p, rfl⟩, s', rfl⟩
  · rintro ⟨⟨p, hp⟩, s', hs⟩
    rw [hp, hs]
    exact ⟨_, rfl⟩

/-- an environment with one schema -/
def env1 : Env where
  fileExists := fun s => s == "/schemas/arbin.yaml"
  isAbs := fun s => match s.toList with
    | '/' :: _ => true
    | _ => false
  abspath := fun s => "/" ++ s
  inSchemaDir := fun s => "/schemas/" ++ s
  baseName := fun s => s

/-- a temperature is kept, the resistance is added; a relative path is refused -/
example :
    (construct env1 (some ⟨[0, 1], [("temperature", [.num 20, .num 21])]⟩) [] [("raw", some "/a.csv")] (some "arbin.yaml") true).map
      Datapath.raw = .ok (some ⟨[0, 1], [("temperature", [.num 20, .num 21]), ("internal_resistance", [.nan, .nan])]⟩) ∧
    (construct env1 none [] [("raw", some "a.csv")] none true).toBool = false ∧
    (construct env1 none [] [] (some "other.yaml") true).toBool = false := by decide +kernel

end Beep.Props.Construct
