import Verif.Proof.Base
import Verif.Proof.Diagnostic
import Verif.Props.Diagnostic
import Verif.Spec.Datapath
/-
Helper lemmas for Props/Datapath: the invariant of reachable datapaths.
-/
namespace Beep.Datapath
open Beep.Spec.Datapath

theorem imputeCol_of_has {f : Frame} {c : String} (h : f.cols.has c = true) : imputeCol f c = f := by
  simp [imputeCol, h]

theorem has_imputeCol (f : Frame) (c : String) : (imputeCol f c).cols.has c = true := by
  unfold imputeCol
  split
  · assumption
  · rw [Dict.has_iff]; exact Dict.mem_keys_set.mpr (Or.inl rfl)

theorem has_imputeCol_mono {f : Frame} {c c' : String} (h : f.cols.has c' = true) :
    (imputeCol f c).cols.has c' = true := by
  unfold imputeCol
  split
  · exact h
  · rw [Dict.has_iff] at *; exact Dict.mem_keys_set.mpr (Or.inr h)

/-- both imputable columns are present -/
def Imputed (f : Frame) : Prop := ∀ c ∈ imputable, f.cols.has c = true

theorem imputed_impute (f : Frame) : Imputed (impute f) := by
  intro c hc
  simp only [imputable, List.mem_cons, List.not_mem_nil, or_false] at hc
  rcases hc with rfl | rfl
  · exact has_imputeCol_mono (has_imputeCol _ _)
  · exact has_imputeCol _ _

theorem impute_of_imputed {f : Frame} (h : Imputed f) : impute f = f := by
  unfold impute imputable
  simp only [List.foldl_cons, List.foldl_nil]
  rw [imputeCol_of_has (h _ (by simp [imputable])), imputeCol_of_has (h _ (by simp [imputable]))]

theorem resolveSchema_idem {env : Env} (ok : EnvOK env) {s s' : Option String}
    (h : resolveSchema env s = .ok s') : resolveSchema env s' = .ok s' := by
  cases s with
  | none => simp [resolveSchema] at h; subst h; rfl
  | some s =>
    have done : ∀ a, env.isAbs a = true → env.fileExists a = true →
        resolveSchema env (some a) = .ok (some a) := by
      intro a h1 h2
      unfold resolveSchema
      by_cases he : a = ""
      · simp [he]
      · simp [he, h1, h2]
    unfold resolveSchema at h
    by_cases he : s = ""
    · simp [he] at h; subst h; simp [resolveSchema]
    · simp only [he, if_false] at h
      have habs : env.isAbs (if env.isAbs s = true then s else env.inSchemaDir s) = true := by
        by_cases ha : env.isAbs s = true
        · simp [ha]
        · simp [ha, ok.schemaDir]
      by_cases hx : env.fileExists (if env.isAbs s = true then s else env.inSchemaDir s) = true
      · rw [if_pos hx] at h
        rw [← Except.ok.inj h]; exact done _ habs hx
      · rw [if_neg hx] at h
        by_cases hy : env.fileExists (env.inSchemaDir (env.baseName s)) = true
        · rw [if_pos hy] at h
          rw [← Except.ok.inj h]; exact done _ (ok.schemaDir _) hy
        · rw [if_neg hy] at h; cases h

/-- the path test of the constructor -/
def badPath (env : Env) (p : String × Option String) : Bool :=
  match p.2 with
  | none => false
  | some s => s ≠ "" && !env.isAbs s

theorem checkPaths_eq (env : Env) (paths : Dict String (Option String)) :
    checkPaths env paths = if paths.isEmpty then .ok [("raw", none)]
      else if paths.any (badPath env) then .error .valueError else .ok paths := rfl

theorem checkPaths_idem {env : Env} {p p' : Dict String (Option String)}
    (h : checkPaths env p = .ok p') : p' ≠ [] ∧ p'.any (badPath env) = false := by
  rw [checkPaths_eq] at h
  split at h
  · cases h; exact ⟨by simp, by simp [badPath]⟩
  · rename_i h1
    split at h
    · cases h
    · rename_i h2
      cases h
      refine ⟨by cases p <;> simp_all, by simpa using h2⟩

theorem any_set {κ ν : Type} [DecidableEq κ] (f : κ × ν → Bool) (d : Dict κ ν) (k : κ) (v : ν)
    (h1 : List.any d f = false) (h2 : f (k, v) = false) : List.any (Dict.set d k v) f = false := by
  induction d with
  | nil => simp [Dict.set, h2]
  | cons p d ih =>
    obtain ⟨k', v'⟩ := p
    simp only [List.any_cons, Bool.or_eq_false_iff] at h1
    unfold Dict.set
    split
    · simp [h2, h1.2]
    · simp [h1.1, ih h1.2]

theorem set_ne_nil {κ ν : Type} [DecidableEq κ] (d : Dict κ ν) (k : κ) (v : ν) : Dict.set d k v ≠ [] := by
  cases d with
  | nil => simp [Dict.set]
  | cons p d => unfold Dict.set; split <;> simp

/-- the invariant of reachable datapaths -/
structure Inv (env : Env) (d : Datapath) : Prop where
  raw : d.legacy = false → ∃ r, d.raw = some r ∧ Imputed r
  frames : isStructured d = true → d.summary.isSome ∧ d.data.isSome
  diag : ∀ c, d.diagnostic = some c → ∃ m kw, Dict.WF m ∧ Diagnostic.init m kw = .ok c
  paths : d.paths ≠ [] ∧ List.any d.paths (badPath env) = false
  schema : resolveSchema env d.schema = .ok d.schema

theorem construct_eq (env : Env) (raw : Option Frame) (metadata : Dict String Val)
    (paths : Dict String (Option String)) (schema : Option String) (b : Bool) (d : Datapath) :
    construct env raw metadata paths schema b = .ok d ↔
      ∃ p s, checkPaths env paths = .ok p ∧ resolveSchema env schema = .ok s ∧
        d = { raw := if b then raw.map impute else raw, metadata := metadata, paths := p, schema := s } := by
  unfold construct
  cases checkPaths env paths with
  | error e => simp [bind, Except.bind]
  | ok p =>
    cases resolveSchema env schema with
    | error e => simp [bind, Except.bind]
    | ok s => simp [bind, Except.bind, eq_comm]

theorem inv_construct {env : Env} (ok : EnvOK env) {raw : Frame} {metadata : Dict String Val}
    {paths : Dict String (Option String)} {schema : Option String} {d : Datapath}
    (h : construct env (some raw) metadata paths schema true = .ok d) : Inv env d := by
  obtain ⟨p, s, hp, hs, rfl⟩ := (construct_eq ..).mp h
  refine ⟨?_, ?_, ?_, checkPaths_idem hp, resolveSchema_idem ok hs⟩
  · intro _; exact ⟨impute raw, rfl, imputed_impute raw⟩
  · intro h; simp [isStructured] at h
  · intro c hc; cases hc

theorem structureAging_ok {c : StructCall} {d d' : Datapath}
    (h : structureAging c d = (d', .ok ())) :
    ∃ f g, d' = { d with data := some f, summary := some g, params := c.params } := by
  unfold structureAging at h
  split at h
  · cases h
  · split at h
    · cases h
    · cases h; exact ⟨_, _, rfl⟩

theorem structureBody_ok {c : StructCall} {d d' : Datapath}
    (h : structureBody c d = (d', .ok ())) :
    ∃ f g ds dd, d' = { d with data := some f, summary := some g, params := c.params,
                                diagSummary := ds, diagData := dd } := by
  unfold structureBody at h
  split at h
  · split at h
    · cases h
    · split at h
      · cases h
      · obtain ⟨f, g, rfl⟩ := structureAging_ok h; exact ⟨f, g, _, _, rfl⟩
  · obtain ⟨f, g, rfl⟩ := structureAging_ok h; exact ⟨f, g, _, _, rfl⟩

/-- the file content for a complete datapath -/
def savedOf (d : Datapath) (r s i : Frame) : Saved where
  rawData := some r.cols
  metadata := some d.metadata
  paths := d.paths
  barcode := d.metadata.get? "barcode"
  protocol := d.metadata.get? "protocol"
  channelId := d.metadata.get? "channel_id"
  summary := some s.cols
  cyclesInterpolated := some i.cols
  diagSummary := d.diagSummary.map Frame.cols
  diagInterpolated := d.diagData.map Frame.cols
  diagnostic := d.diagnostic.map Diagnostic.asDict
  params := d.params
  schemaPath := d.schema

/-- result of saving and loading a datapath that satisfies the invariant -/
theorem saveLoad_keep {env : Env} (ok : EnvOK env) {d : Datapath} (inv : Inv env d) (file : String)
    (hl : d.legacy = false) (hs : isStructured d = true) :
    ∃ r s i, d.raw = some r ∧ d.summary = some s ∧ d.data = some i ∧
    saveLoad env false file d = .ok
      { raw := some (frameOf r.cols), metadata := d.metadata
        paths := d.paths.set "structured" (some (env.abspath file)), schema := d.schema
        summary := some (frameOf s.cols), data := some (frameOf i.cols)
        diagSummary := d.diagSummary.map (fun f => frameOf f.cols)
        diagData := d.diagData.map (fun f => frameOf f.cols)
        diagnostic := d.diagnostic, params := d.params, legacy := false } ∧
    saveLoad env true file d = .ok
      { raw := none
        metadata := [("barcode", (d.metadata.get? "barcode").getD .null),
          ("protocol", (d.metadata.get? "protocol").getD .null),
          ("channel_id", (d.metadata.get? "channel_id").getD .null)]
        paths := d.paths.set "structured" (some (env.abspath file)), schema := d.schema
        summary := some (frameOf s.cols), data := some (frameOf i.cols)
        diagSummary := d.diagSummary.map (fun f => frameOf f.cols)
        diagData := d.diagData.map (fun f => frameOf f.cols)
        diagnostic := d.diagnostic, params := d.params, legacy := true } := by
  obtain ⟨r, hr, himp⟩ := inv.raw hl
  obtain ⟨h1, h2⟩ := inv.frames hs
  obtain ⟨s, hsum⟩ := Option.isSome_iff_exists.mp h1
  obtain ⟨i, hdat⟩ := Option.isSome_iff_exists.mp h2
  refine ⟨r, s, i, hr, hsum, hdat, ?_⟩
  have hsave : ∀ o, toJsonFile o d = .ok
      (if o then { savedOf d r s i with rawData := none } else savedOf d r s i) := by
    intro o
    unfold toJsonFile asDict mustNotBeLegacy asDictBody framesOf
    simp only [hl, Bool.false_eq_true, if_false, hs, Bool.not_true, hsum, hdat, hr]
    rfl
  have hpaths : checkPaths env (d.paths.set "structured" (some (env.abspath file))) =
      .ok (d.paths.set "structured" (some (env.abspath file))) := by
    rw [checkPaths_eq]
    have h1 : List.isEmpty (d.paths.set "structured" (some (env.abspath file))) = false := by
      have := set_ne_nil d.paths "structured" (some (env.abspath file))
      cases h : d.paths.set "structured" (some (env.abspath file)) with
      | nil => exact absurd h this
      | cons => rfl
    have h2 : List.any (d.paths.set "structured" (some (env.abspath file))) (badPath env) = false :=
      any_set _ _ _ _ inv.paths.2 (by simp [badPath, ok.abspath])
    simp [h1, h2]
  have himp' : impute (frameOf r.cols) = frameOf r.cols := impute_of_imputed himp
  have hdiag : ∀ c, d.diagnostic = some c → Diagnostic.fromDict (Diagnostic.asDict c) = .ok c := by
    intro c hc
    obtain ⟨m, kw, wf, hi⟩ := inv.diag c hc
    exact Diagnostic.C04_round_trip m wf kw c hi
  constructor
  · unfold saveLoad
    simp only [hsave, bind, Except.bind]
    unfold fromJsonFile fromDict construct savedOf
    simp only [Bool.false_eq_true, if_false, hpaths, inv.schema, bind, Except.bind, if_true,
      Option.map_some, himp', frameOfOpt, Option.map_map, Function.comp_def]
    cases hd : d.diagnostic with
    | none => simp
    | some c => simp [hdiag c hd]
  · unfold saveLoad
    simp only [hsave, bind, Except.bind]
    unfold fromJsonFile fromDict construct legacyMetadata savedOf
    simp only [hpaths, inv.schema, bind, Except.bind, if_true,
      Option.map_none, frameOfOpt, Option.map_map, Function.comp_def]
    cases hd : d.diagnostic with
    | none => simp
    | some c => simp [hdiag c hd]

/-- saving an unstructured datapath with raw data and loading it back -/
theorem saveLoad_unstructured {env : Env} {d : Datapath} (inv : Inv env d)
    (file : String) (o : Bool) (hl : d.legacy = false) (hs : isStructured d = false) {d' : Datapath}
    (h : saveLoad env o file d = .ok d') :
    isStructured d' = true ∧ d'.summary = some emptyFrame ∧ d'.data = some emptyFrame := by
  obtain ⟨r, hr, himp⟩ := inv.raw hl
  unfold saveLoad toJsonFile asDict mustNotBeLegacy asDictBody framesOf at h
  simp only [hl, Bool.false_eq_true, if_false, hs, Bool.not_false, if_true, hr, bind, Except.bind] at h
  unfold fromJsonFile fromDict construct at h
  simp only [bind, Except.bind] at h
  split at h
  · cases h
  · rename_i d₀ h0
    split at h0
    · cases h0
    · split at h0
      · cases h0
      · cases h0
        cases o <;> simp only [if_true, if_false, Bool.false_eq_true, frameOfOpt] at h <;>
        · split at h
          · cases h; exact ⟨rfl, rfl, rfl⟩
          · split at h
            · cases h
            · cases h; exact ⟨rfl, rfl, rfl⟩

theorem saveLoad_legacy {env : Env} {d : Datapath} (file : String) (o : Bool) (hl : d.legacy = true) :
    saveLoad env o file d = .error .valueError := by
  simp [saveLoad, toJsonFile, asDict, mustNotBeLegacy, hl, bind, Except.bind]

/-- the parts of the invariant that do not concern frames survive any successful load -/
theorem inv_saveLoad {env : Env} (ok : EnvOK env) {d d' : Datapath} (inv : Inv env d)
    (file : String) (o : Bool) (h : saveLoad env o file d = .ok d') : Inv env d' := by
  cases hl : d.legacy with
  | true => rw [saveLoad_legacy file o hl] at h; cases h
  | false =>
    obtain ⟨r, hr, himp⟩ := inv.raw hl
    have hsv : ∃ sv : Saved, toJsonFile o d = .ok sv ∧ sv.diagnostic = d.diagnostic.map Diagnostic.asDict ∧
        (sv.rawData = none ∨ sv.rawData = some r.cols) ∧ sv.paths = d.paths := by
      unfold saveLoad at h
      cases hh : toJsonFile o d with
      | error e => rw [hh] at h; simp [bind, Except.bind] at h
      | ok sv =>
        refine ⟨sv, rfl, ?_⟩
        unfold toJsonFile asDict mustNotBeLegacy asDictBody at hh
        simp only [hl, Bool.false_eq_true, if_false, hr] at hh
        cases hf : framesOf d with
        | error e => rw [hf] at hh; simp [bind, Except.bind] at hh
        | ok fs =>
          rw [hf] at hh
          simp only [bind, Except.bind, Except.ok.injEq] at hh
          subst hh
          cases o <;> simp
    obtain ⟨sv, hsv, hdg, hrd, hpth⟩ := hsv
    unfold saveLoad at h
    rw [hsv] at h
    simp only [bind, Except.bind] at h
    unfold fromJsonFile fromDict at h
    simp only [bind, Except.bind] at h
    split at h
    · cases h
    · rename_i d₀ h0
      obtain ⟨p, s, hp, hs, he⟩ := (construct_eq ..).mp h0
      have hpI := checkPaths_idem hp
      have hsI := resolveSchema_idem ok hs
      have hdone : ∀ d'', d''.raw = d₀.raw → d''.legacy = (match sv.rawData, sv.metadata with
            | some r, some m => (some (frameOf r), m, false)
            | _, _ => (none, legacyMetadata
                { sv with paths := sv.paths.set "structured" (some (env.abspath file)) }, true)).2.2 →
          d''.summary.isSome → d''.data.isSome →
          (∀ c, d''.diagnostic = some c → ∃ m kw, Dict.WF m ∧ Diagnostic.init m kw = .ok c) →
          d''.paths = p → d''.schema = s → Inv env d'' := by
        intro d'' e1 e2 e3 e4 e5 e6 e7
        refine ⟨?_, fun _ => ⟨e3, e4⟩, e5, by rw [e6]; exact hpI, by rw [e7]; exact hsI⟩
        intro hl'
        rw [e2] at hl'
        rw [e1, he]
        rcases hrd with hrd | hrd
        · rw [hrd] at hl'; simp at hl'
        · cases hm : sv.metadata with
          | none => rw [hrd, hm] at hl'; simp at hl'
          | some m => simp only [hrd]; exact ⟨_, rfl, imputed_impute _⟩
      split at h
      · rename_i hnone
        cases h
        refine hdone _ rfl rfl rfl rfl ?_ (by rw [he]) (by rw [he])
        intro c hc
        rw [he] at hc; cases hc
      · rename_i g hg
        split at h
        · cases h
        · rename_i c hc
          cases h
          refine hdone _ rfl rfl rfl rfl ?_ (by rw [he]) (by rw [he])
          intro c' hc'
          cases hc'
          rw [hdg] at hg
          cases hdd : d.diagnostic with
          | none => rw [hdd] at hg; cases hg
          | some c₀ =>
            rw [hdd] at hg
            simp only [Option.map_some, Option.some.injEq] at hg
            obtain ⟨m, kw, wf, hi⟩ := inv.diag c₀ hdd
            rw [← hg, Diagnostic.C04_round_trip m wf kw c₀ hi] at hc
            cases hc
            exact ⟨m, kw, wf, hi⟩

theorem inv_step {env : Env} (ok : EnvOK env) {d d' : Datapath} (inv : Inv env d) {o : Op} (ho : OpOK o)
    (h : step env d o = (d', .ok ())) : Inv env d' := by
  cases o with
  | structure_ c =>
    simp only [step, structure_, mustNotBeLegacy] at h
    split at h
    · cases h
    · obtain ⟨f, g, ds, dd, rfl⟩ := structureBody_ok h
      exact ⟨inv.raw, fun _ => ⟨rfl, rfl⟩, inv.diag, inv.paths, inv.schema⟩
  | unstructure =>
    simp only [step, unstructure, mustNotBeLegacy] at h
    split at h
    · cases h
    · cases h
      exact ⟨inv.raw, by simp [isStructured], by simp, inv.paths, inv.schema⟩
  | setDiagnostic a =>
    cases a with
    | none => cases h; exact ⟨inv.raw, inv.frames, by simp, inv.paths, inv.schema⟩
    | config c =>
      cases h
      refine ⟨inv.raw, inv.frames, ?_, inv.paths, inv.schema⟩
      intro c' hc'; cases hc'; exact ho
    | other => cases h
  | saveLoad om f =>
    simp only [step] at h
    split at h
    · rename_i d'' hd
      cases h
      exact inv_saveLoad ok inv f om hd
    · cases h

theorem inv_run {env : Env} (ok : EnvOK env) {d d' : Datapath} (inv : Inv env d) (ops : List Op)
    (ho : ∀ o ∈ ops, OpOK o) (h : run env d ops = .ok d') : Inv env d' := by
  induction ops generalizing d with
  | nil => cases h; exact inv
  | cons o ops ih =>
    unfold run at h
    split at h
    · rename_i d'' hd
      exact ih (inv_step ok inv (ho o (List.mem_cons_self ..)) hd)
        (fun o h => ho o (List.mem_cons_of_mem _ h)) h
    · cases h

theorem inv_reachable {env : Env} (ok : EnvOK env) {d : Datapath} (h : Reachable env d) : Inv env d := by
  obtain ⟨raw, md, p, s, d₀, ops, h0, ho, hr⟩ := h
  exact inv_run ok (inv_construct ok h0) ops ho hr

end Beep.Datapath
