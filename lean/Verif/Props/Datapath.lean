import Verif.Proof.Datapath
/-
Property theorems C06-C08 about the life cycle of a datapath.
-/
namespace Beep.Datapath
open Beep.Spec.Datapath

/-- A concrete environment and datapath used for non-vacuity. -/
def exEnv : Env where
  fileExists := fun s => s == "/schemas/arbin.yaml"
  isAbs := fun s => match s.toList with
    | '/' :: _ => true
    | _ => false
  abspath := fun s => "/" ++ s
  inSchemaDir := fun s => "/schemas/" ++ s
  baseName := fun s => s

theorem exEnv_ok : EnvOK exEnv := by
  refine ⟨?_, ?_⟩ <;> intro s <;> simp [exEnv]

def exRaw : Frame := frameOf [("voltage", [.num 3, .num 4])]
def exFrame (n : Rat) : Frame := frameOf [("x", [.num n])]
def exCall : StructCall :=
  ⟨[("resolution", .num 1000)], .ok (exFrame 1), .ok (exFrame 2), .ok (exFrame 3), .ok (exFrame 4)⟩
def exDiag : Diagnostic.Config :=
  { cycles := [("rpt", [1])], typeByIx := [(1, "rpt")], hppcIx := [], rptIx := [1], resetIx := []
    allIx := [1], params := [] }
def exOps : List Op := [.setDiagnostic (.config exDiag), .structure_ exCall, .saveLoad false "s.json"]

/-! ### C06: is_structured and the history -/

/-- executable form of "structured since", with a starting value -/
def flag (b : Bool) : List Op → Bool
  | [] => b
  | .structure_ _ :: os => flag true os
  | .unstructure :: os => flag false os
  | _ :: os => flag b os

theorem flag_true_of_no_unstructure (ops : List Op) (h : ∀ o ∈ ops, o ≠ Op.unstructure) :
    flag true ops = true := by
  induction ops with
  | nil => rfl
  | cons o os ih =>
    have ih := ih (fun o ho => h o (List.mem_cons_of_mem _ ho))
    cases o with
    | unstructure => exact absurd rfl (h _ (List.mem_cons_self ..))
    | _ => exact ih

theorem flag_iff (ops : List Op) (b : Bool) :
    flag b ops = true ↔ StructuredSince ops ∨ (b = true ∧ ∀ o ∈ ops, o ≠ Op.unstructure) := by
  induction ops generalizing b with
  | nil =>
    simp only [flag, StructuredSince]
    constructor
    · intro h; exact Or.inr ⟨h, by simp⟩
    · rintro (⟨pre, c, post, h, _⟩ | ⟨h, _⟩)
      · cases pre <;> simp at h
      · exact h
  | cons o os ih =>
    have shift : ∀ o, (∀ c, o ≠ Op.structure_ c) → (StructuredSince (o :: os) ↔ StructuredSince os) := by
      intro o hne
      constructor
      · rintro ⟨pre, c, post, h, hp⟩
        cases pre with
        | nil => simp only [List.nil_append, List.cons.injEq] at h; exact absurd h.1 (hne c)
        | cons q pre => simp only [List.cons_append, List.cons.injEq] at h; exact ⟨pre, c, post, h.2, hp⟩
      · rintro ⟨pre, c, post, rfl, hp⟩; exact ⟨o :: pre, c, post, rfl, hp⟩
    cases o with
    | structure_ c =>
      simp only [flag, ih]
      constructor
      · rintro (⟨pre, c', post, rfl, hp⟩ | ⟨_, h⟩)
        · exact Or.inl ⟨.structure_ c :: pre, c', post, rfl, hp⟩
        · exact Or.inl ⟨[], c, os, rfl, h⟩
      · rintro (⟨pre, c', post, h, hp⟩ | ⟨_, h⟩)
        · cases pre with
          | nil =>
            simp only [List.nil_append, List.cons.injEq] at h
            right; rw [h.2]; exact ⟨trivial, hp⟩
          | cons q pre =>
            simp only [List.cons_append, List.cons.injEq] at h
            exact Or.inl ⟨pre, c', post, h.2, hp⟩
        · exact Or.inr ⟨trivial, fun o ho => h o (List.mem_cons_of_mem _ ho)⟩
    | unstructure =>
      rw [shift _ (by intro c h; cases h)]
      simp [flag, ih]
    | setDiagnostic a =>
      rw [shift _ (by intro c h; cases h)]
      simp only [flag, ih]
      constructor
      · rintro (h | ⟨hb, h⟩)
        · exact Or.inl h
        · refine Or.inr ⟨hb, ?_⟩
          intro o ho
          rcases List.mem_cons.mp ho with rfl | ho
          · intro h; cases h
          · exact h o ho
      · rintro (h | ⟨hb, h⟩)
        · exact Or.inl h
        · exact Or.inr ⟨hb, fun o ho => h o (List.mem_cons_of_mem _ ho)⟩
    | saveLoad om f =>
      rw [shift _ (by intro c h; cases h)]
      simp only [flag, ih]
      constructor
      · rintro (h | ⟨hb, h⟩)
        · exact Or.inl h
        · refine Or.inr ⟨hb, ?_⟩
          intro o ho
          rcases List.mem_cons.mp ho with rfl | ho
          · intro h; cases h
          · exact h o ho
      · rintro (h | ⟨hb, h⟩)
        · exact Or.inl h
        · exact Or.inr ⟨hb, fun o ho => h o (List.mem_cons_of_mem _ ho)⟩

theorem step_flag {env : Env} (ok : EnvOK env) {d d' : Datapath} (inv : Inv env d) {o : Op}
    (hs : ∀ om f, o = .saveLoad om f → isStructured d = true)
    (h : step env d o = (d', .ok ())) : isStructured d' = flag (isStructured d) [o] := by
  cases o with
  | structure_ c =>
    simp only [step, structure_, mustNotBeLegacy] at h
    split at h
    · cases h
    · obtain ⟨f, g, ds, dd, rfl⟩ := structureBody_ok h; simp [isStructured, flag]
  | unstructure =>
    simp only [step, unstructure, mustNotBeLegacy] at h
    split at h
    · cases h
    · cases h; simp [isStructured, flag]
  | setDiagnostic a => cases a <;> cases h <;> rfl
  | saveLoad om f =>
    have hd := hs om f rfl
    simp only [step] at h
    split at h
    · rename_i d'' hsl
      cases h
      simp only [flag, hd]
      cases hl : d.legacy with
      | true => rw [saveLoad_legacy f om hl] at hsl; cases hsl
      | false =>
        obtain ⟨r, s, i, _, _, _, h1, h2⟩ := saveLoad_keep ok inv f hl hd
        cases om
        · rw [h1] at hsl; cases hsl; rfl
        · rw [h2] at hsl; cases hsl; rfl
    · cases h

theorem run_flag {env : Env} (ok : EnvOK env) {d d' : Datapath} (inv : Inv env d) (ops : List Op)
    (ho : ∀ o ∈ ops, OpOK o)
    (hs : ∀ pre om f post, ops = pre ++ .saveLoad om f :: post → flag (isStructured d) pre = true)
    (h : run env d ops = .ok d') : isStructured d' = flag (isStructured d) ops := by
  induction ops generalizing d with
  | nil => cases h; rfl
  | cons o ops ih =>
    unfold run at h
    split at h
    · rename_i d'' hd
      have hst : isStructured d'' = flag (isStructured d) [o] :=
        step_flag ok inv (fun om f e => by
          subst e; exact hs [] om f ops rfl) hd
      have hcat : ∀ p, flag (isStructured d'') p = flag (isStructured d) (o :: p) := by
        intro p; rw [hst]; cases o <;> rfl
      have := ih (inv_step ok inv (ho o (List.mem_cons_self ..)) hd)
        (fun o h => ho o (List.mem_cons_of_mem _ h))
        (fun pre om f post e => by
          rw [hcat]; exact hs (o :: pre) om f post (by simp [e])) h
      rw [this, hcat]
    · cases h

/-- C06 (partial).  After any history of calls that all returned normally, in which files
were saved and loaded only at moments when `structure` had been called since the last
`unstructure`, `is_structured` is True iff `structure` was called since the last
`unstructure`.  Missing from the full claim: histories that save and load an unstructured
datapath (`C06_reload_violated`) and calls of `structure` that raise
(`C06_failed_structure_violated`). -/
theorem C06_history_partial (env : Env) (ok : EnvOK env) (raw : Frame) (metadata : Dict String Val)
    (paths : Dict String (Option String)) (schema : Option String) (d₀ d : Datapath) (ops : List Op)
    (h0 : construct env (some raw) metadata paths schema true = .ok d₀)
    (ho : ∀ o ∈ ops, OpOK o) (hr : run env d₀ ops = .ok d)
    (hs : ∀ pre om f post, ops = pre ++ .saveLoad om f :: post → StructuredSince pre) :
    isStructured d = true ↔ StructuredSince ops := by
  have inv := inv_construct ok h0
  have hf : isStructured d₀ = false := by
    obtain ⟨p, s, _, _, rfl⟩ := (construct_eq ..).mp h0; rfl
  rw [run_flag ok inv ops ho (fun pre om f post e => by
    rw [flag_iff]; exact Or.inl (hs pre om f post e)) hr, hf, flag_iff]
  simp

example : ∃ d₀ d, construct exEnv (some exRaw) [] [] (some "arbin.yaml") true = .ok d₀ ∧
    run exEnv d₀ exOps = .ok d ∧ isStructured d = true := by
  refine ⟨_, _, rfl, rfl, ?_⟩
  decide +kernel
example : ∀ o ∈ exOps, OpOK o := by
  intro o ho
  simp only [exOps, List.mem_cons, List.not_mem_nil, or_false] at ho
  rcases ho with rfl | rfl | rfl
  · exact ⟨[("rpt", [1])], [], by decide, by decide⟩
  · trivial
  · trivial

/-- C06 (save/load), the true half: a structured datapath is structured after a round
trip, with or without its raw data. -/
theorem C06_reload_structured_partial (env : Env) (ok : EnvOK env) (d : Datapath) (hr : Reachable env d)
    (hl : d.legacy = false) (hs : isStructured d = true) (omitRaw : Bool) (file : String) :
    ∃ d', saveLoad env omitRaw file d = .ok d' ∧ isStructured d' = true := by
  obtain ⟨r, s, i, _, _, _, h1, h2⟩ := saveLoad_keep ok (inv_reachable ok hr) file hl hs
  cases omitRaw
  · exact ⟨_, h1, rfl⟩
  · exact ⟨_, h2, rfl⟩

/-- C06 (save/load), violated: every datapath that is not structured reports
`is_structured = True` after it was saved and loaded, with empty structured frames. -/
theorem C06_reload_violated (env : Env) (ok : EnvOK env) (d d' : Datapath) (hr : Reachable env d)
    (hl : d.legacy = false) (hs : isStructured d = false) (omitRaw : Bool) (file : String)
    (h : saveLoad env omitRaw file d = .ok d') :
    isStructured d' = true ∧ d'.summary = some emptyFrame ∧ d'.data = some emptyFrame :=
  saveLoad_unstructured (inv_reachable ok hr) file omitRaw hl hs h

example : ∃ d₀ d, construct exEnv (some exRaw) [] [] none true = .ok d₀ ∧ isStructured d₀ = false ∧
    saveLoad exEnv false "s.json" d₀ = .ok d := ⟨_, _, rfl, by decide +kernel, rfl⟩

/-- C06, violated for failing calls: `structure` raises, yet afterwards `is_structured` is
True (the diagnostic frames were assigned first), and the object can no longer be saved
(`AttributeError`). -/
theorem C06_failed_structure_violated :
    ∃ d₀, construct exEnv (some exRaw) [] [] none true = .ok d₀ ∧
      let c : StructCall := { exCall with data := .error .valueError }
      let d := runCatch exEnv d₀ [.setDiagnostic (.config exDiag), .structure_ c]
      (step exEnv (runCatch exEnv d₀ [.setDiagnostic (.config exDiag)]) (.structure_ c)).2 =
        .error .valueError ∧
      isStructured d = true ∧ asDict d = .error .attributeError := by
  refine ⟨_, rfl, ?_⟩
  decide +kernel

/-! ### C07: saving and loading -/

/-- C07.  Saving a structured datapath with its raw data and loading the file gives back
the same raw, structured and diagnostic tables, metadata, diagnostic configuration,
structuring parameters and schema; the paths gain the location of the file; and the loaded
object can be saved again. -/
theorem C07_lossless (env : Env) (ok : EnvOK env) (d : Datapath) (hr : Reachable env d)
    (hl : d.legacy = false) (hs : isStructured d = true) (file : String) :
    ∃ d', saveLoad env false file d = .ok d' ∧
      SameTable d'.raw d.raw ∧ SameTable d'.summary d.summary ∧ SameTable d'.data d.data ∧
      SameTable d'.diagSummary d.diagSummary ∧ SameTable d'.diagData d.diagData ∧
      d'.metadata = d.metadata ∧ d'.diagnostic = d.diagnostic ∧ d'.params = d.params ∧
      d'.schema = d.schema ∧
      (∀ k, d'.paths.get? k = if k = "structured" then some (some (env.abspath file)) else d.paths.get? k) ∧
      (∃ s, toJsonFile false d' = .ok s) := by
  have inv := inv_reachable ok hr
  obtain ⟨r, s, i, e1, e2, e3, h1, _⟩ := saveLoad_keep ok inv file hl hs
  refine ⟨_, h1, ?_, ?_, ?_, ?_, ?_, rfl, rfl, rfl, rfl, ?_, ?_⟩
  · simp [SameTable, e1, frameOf]
  · simp [SameTable, e2, frameOf]
  · simp [SameTable, e3, frameOf]
  · cases d.diagSummary <;> simp [SameTable, frameOf]
  · cases d.diagData <;> simp [SameTable, frameOf]
  · intro k
    simp only [Dict.get?_set]
  · simp [toJsonFile, asDict, mustNotBeLegacy, asDictBody, framesOf, isStructured, bind, Except.bind]

/-- C07 (default save).  Without raw data the loaded object still has all structured
tables, the diagnostic configuration and the parameters. -/
theorem C07_default_keeps_frames (env : Env) (ok : EnvOK env) (d : Datapath) (hr : Reachable env d)
    (hl : d.legacy = false) (hs : isStructured d = true) (file : String) :
    ∃ d', saveLoad env true file d = .ok d' ∧
      SameTable d'.summary d.summary ∧ SameTable d'.data d.data ∧
      SameTable d'.diagSummary d.diagSummary ∧ SameTable d'.diagData d.diagData ∧
      d'.diagnostic = d.diagnostic ∧ d'.params = d.params := by
  have inv := inv_reachable ok hr
  obtain ⟨r, s, i, e1, e2, e3, _, h1⟩ := saveLoad_keep ok inv file hl hs
  refine ⟨_, h1, ?_, ?_, ?_, ?_, rfl, rfl⟩
  · simp [SameTable, e2, frameOf]
  · simp [SameTable, e3, frameOf]
  · cases d.diagSummary <;> simp [SameTable, frameOf]
  · cases d.diagData <;> simp [SameTable, frameOf]

/-- C07 (row labels).  Whatever the row labels were, with or without raw data, those of the tables of the loaded object count
from 0. -/
theorem C07_row_labels (env : Env) (ok : EnvOK env) (d : Datapath) (hr : Reachable env d)
    (hl : d.legacy = false) (hs : isStructured d = true) (file : String) (omitRaw : Bool) :
    ∃ d', saveLoad env omitRaw file d = .ok d' ∧
      NumberedFromZero d'.summary ∧ NumberedFromZero d'.data ∧ NumberedFromZero d'.diagSummary ∧
      NumberedFromZero d'.diagData ∧ (omitRaw = false → NumberedFromZero d'.raw) := by
  have key : ∀ c : Cols, NumberedFromZero (some (frameOf c)) := by
    intro c f hf
    obtain rfl := Option.some.inj hf
    refine ⟨fun hc => ?_, fun name col rest hc => ?_⟩
    · have : c = [] := hc
      subst this; rfl
    · have : c = (name, col) :: rest := hc
      subst this
      refine ⟨by simp [frameOf], fun k hk => ?_⟩
      simp only [frameOf]
      simp [hk]
  have keyO : ∀ o : Option Frame, NumberedFromZero (o.map (fun f => frameOf f.cols)) := by
    intro o
    cases o with
    | none => intro f hf; cases hf
    | some f => exact key f.cols
  have inv := inv_reachable ok hr
  obtain ⟨r, s, i, _, _, _, h1, h2⟩ := saveLoad_keep ok inv file hl hs
  cases omitRaw
  · exact ⟨_, h1, key _, key _, keyO _, keyO _, fun _ => key _⟩
  · exact ⟨_, h2, key _, key _, keyO _, keyO _, fun e => by cases e⟩

/-- C07 (default save, consequence).  What the default save loses: every metadata key
other than barcode, protocol and channel_id, and the ability to save the loaded object. -/
theorem C07_default_loses (env : Env) (ok : EnvOK env) (d : Datapath) (hr : Reachable env d)
    (hl : d.legacy = false) (hs : isStructured d = true) (file : String) :
    ∃ d', saveLoad env true file d = .ok d' ∧
      (∀ o, toJsonFile o d' = .error .valueError) ∧
      (∀ k v, d'.metadata.get? k = some v → k = "barcode" ∨ k = "protocol" ∨ k = "channel_id") := by
  have inv := inv_reachable ok hr
  obtain ⟨r, s, i, e1, e2, e3, _, h1⟩ := saveLoad_keep ok inv file hl hs
  refine ⟨_, h1, ?_, ?_⟩
  · intro o; simp [toJsonFile, asDict, mustNotBeLegacy, bind, Except.bind]
  · intro k v hk
    have := Dict.get?_some_mem hk
    simp only [List.mem_cons, Prod.mk.injEq, List.not_mem_nil, or_false] at this
    rcases this with h | h | h
    · exact Or.inl h.1
    · exact Or.inr (Or.inl h.1)
    · exact Or.inr (Or.inr h.1)

/-- non-vacuity for C07: a reachable, structured, non-legacy datapath -/
example : ∃ d, Reachable exEnv d ∧ d.legacy = false ∧ isStructured d = true := by
  refine ⟨_, ⟨exRaw, [("barcode", .str "b"), ("operator", .str "o")], [], some "arbin.yaml", _, exOps,
    rfl, ?_, rfl⟩, ?_, ?_⟩
  · intro o ho
    simp only [exOps, List.mem_cons, List.not_mem_nil, or_false] at ho
    rcases ho with rfl | rfl | rfl
    · exact ⟨[("rpt", [1])], [], by decide, by decide⟩
    · trivial
    · trivial
  · decide +kernel
  · decide +kernel

/-! ### C08: guards -/

/-- C08 (structured guard).  A guarded operation on a datapath that is not structured
raises `RuntimeError` and leaves the object unchanged; otherwise it is the unguarded
operation. -/
theorem C08_must_be_structured {α : Type} (f : Datapath → Datapath × Except Err α) (d : Datapath) :
    (isStructured d = false → mustBeStructured f d = (d, .error .runtimeError)) ∧
    (isStructured d = true → mustBeStructured f d = f d) := by
  constructor <;> intro h <;> simp [mustBeStructured, h]

/-- C08 (fresh object).  On a datapath that was constructed and only ever had its
diagnostic assigned, or that was unstructured, a guarded operation raises. -/
theorem C08_unstructured_refuses {α : Type} (f : Datapath → Datapath × Except Err α)
    (env : Env) (ok : EnvOK env) (raw : Frame) (metadata : Dict String Val)
    (paths : Dict String (Option String)) (schema : Option String) (d₀ d : Datapath) (ops : List Op)
    (h0 : construct env (some raw) metadata paths schema true = .ok d₀)
    (ho : ∀ o ∈ ops, OpOK o) (hr : run env d₀ ops = .ok d)
    (hs : ∀ o ∈ ops, ∀ om f, o ≠ .saveLoad om f) (hn : ¬ StructuredSince ops) :
    mustBeStructured f d = (d, .error .runtimeError) := by
  apply (C08_must_be_structured f d).1
  have := C06_history_partial env ok raw metadata paths schema d₀ d ops h0 ho hr
    (fun pre om f post e => absurd rfl (hs (.saveLoad om f) (by rw [e]; simp) om f))
  exact Bool.eq_false_iff.mpr (fun h => hn (this.mp h))

/-- C08 (legacy guard, whole histories).  On a legacy load every `structure`,
`unstructure` and save raises `ValueError`, and no history of calls, with exceptions
caught, changes anything but the diagnostic attribute. -/
theorem C08_legacy_frozen (env : Env) (d : Datapath) (hl : d.legacy = true) :
    (∀ c, step env d (.structure_ c) = (d, .error .valueError)) ∧
    (step env d .unstructure = (d, .error .valueError)) ∧
    (∀ o f, step env d (.saveLoad o f) = (d, .error .valueError)) ∧
    (∀ ops, ∃ g, runCatch env d ops = { d with diagnostic := g }) := by
  have h1 : ∀ (d : Datapath), d.legacy = true → ∀ c, step env d (.structure_ c) = (d, .error .valueError) := by
    intro d hl c; simp [step, structure_, mustNotBeLegacy, hl]
  have h2 : ∀ (d : Datapath), d.legacy = true → step env d .unstructure = (d, .error .valueError) := by
    intro d hl; simp [step, unstructure, mustNotBeLegacy, hl]
  have h3 : ∀ (d : Datapath), d.legacy = true → ∀ o f, step env d (.saveLoad o f) = (d, .error .valueError) := by
    intro d hl o f; simp [step, saveLoad_legacy f o hl]
  refine ⟨h1 d hl, h2 d hl, h3 d hl, ?_⟩
  intro ops
  induction ops generalizing d with
  | nil => exact ⟨d.diagnostic, rfl⟩
  | cons o ops ih =>
    unfold runCatch
    cases o with
    | structure_ c => rw [h1 d hl]; exact ih d hl
    | unstructure => rw [h2 d hl]; exact ih d hl
    | saveLoad om f => rw [h3 d hl]; exact ih d hl
    | setDiagnostic a =>
      cases a with
      | none => obtain ⟨g, hg⟩ := ih { d with diagnostic := none } hl; exact ⟨g, hg⟩
      | config c => obtain ⟨g, hg⟩ := ih { d with diagnostic := some c } hl; exact ⟨g, hg⟩
      | other => exact ih d hl

/-- C08 (legacy guard, other side).  On a non-legacy datapath the guarded calls are the
unguarded ones. -/
theorem C08_not_legacy (d : Datapath) (hl : d.legacy = false) :
    (∀ c, structure_ c d = structureBody c d) ∧ asDict d = asDictBody d := by
  constructor
  · intro c; simp [structure_, mustNotBeLegacy, hl]
  · simp [asDict, mustNotBeLegacy, hl]

/-- C08 (setter).  Assigning something that is neither `None` nor a `DiagnosticConfig`
raises `TypeError` and changes nothing; the legal assignments change only the diagnostic. -/
theorem C08_setter (env : Env) (d : Datapath) :
    step env d (.setDiagnostic .other) = (d, .error .typeError) ∧
    (∀ c, step env d (.setDiagnostic (.config c)) = ({ d with diagnostic := some c }, .ok ())) ∧
    step env d (.setDiagnostic .none) = ({ d with diagnostic := none }, .ok ()) :=
  ⟨rfl, fun _ => rfl, rfl⟩

example : ∃ d d', construct exEnv (some exRaw) [] [] none true = .ok d ∧
    saveLoad exEnv true "s.json" (runCatch exEnv d exOps) = .ok d' ∧ d'.legacy = true :=
  ⟨_, _, rfl, rfl, rfl⟩

end Beep.Datapath
