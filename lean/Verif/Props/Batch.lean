import Verif.Proof.Batch
/-
C54 and C55: batch structuring.
-/
namespace Beep.Props.Batch
open Beep Batch Spec.Batch Proof.Batch

variable {D C : Type}

theorem outputs_length (env : Env D C) (o : Opts) (files outs : List Str)
    (h : outputs env o files = .ok outs) : outs.length = files.length := by
  unfold outputs at h
  split at h
  · injection h with h; rw [← h]; simp
  · split at h
    · split at h
      · rename_i hl; injection h with h; rw [← h]; simp [hl]
      · cases h
    · injection h with h; rw [← h]; simp

theorem fst_zip (files outs : List Str) (h : outs.length = files.length) :
    (files.zip outs).map Prod.fst = files := by
  rw [List.map_fst_zip]; omega

theorem structure_eq (env : Env D C) (o : Opts) (files outs : List Str) (fs : Files C)
    (hex : ∀ f ∈ files, fs (env.abspath f) ≠ none) (ho : outputs env o (files.map env.abspath) = .ok outs) :
    structure_ env o files fs = .ok (loop env o ((files.map env.abspath).zip outs) [] fs) := by
  unfold structure_
  have : (files.map env.abspath).any (fun f => (fs f).isNone) = false := by
    rw [List.any_eq_false]
    intro f hf
    obtain ⟨g, hg, rfl⟩ := List.mem_map.mp hf
    simpa using hex g hg
  simp only [this, Bool.false_eq_true, if_false, ho]

/-- C54: if all files are there, no output goes to an input and nobody presses Ctrl-C, every file is
processed in order, each one has exactly one entry, the entry says what happens to that file taken alone
on the original disk, and the three lists of the report divide the files.
Missing: files that do not exist, outputs onto inputs (see below). -/
theorem C54_accounts_partial (env : Env D C) (hu : Undisturbed env) (o : Opts) (hh : o.haltOnError = false)
    (files outs : List Str) (fs : Files C) (hex : ∀ f ∈ files, fs (env.abspath f) ≠ none)
    (ho : outputs env o (files.map env.abspath) = .ok outs)
    (hap : Apart ((files.map env.abspath).zip outs)) (hcon : Consistent ((files.map env.abspath).zip outs)) :
    ∃ st fs', structure_ env o files fs = .ok (.done st fs', files.map env.abspath) ∧
      st.keys.Nodup ∧ (∀ f, f ∈ st.keys ↔ f ∈ files.map env.abspath) ∧
      (∀ p ∈ (files.map env.abspath).zip outs,
        ∃ r, Dict.get? st p.1 = some r ∧ Tells env o fs p.1 p.2 r) ∧
      (∀ q, q ∉ outs → fs' q = fs q) := by
  have hl := outputs_length env o _ outs ho
  obtain ⟨st, fs', h1, h2, h3, _, h5, h6, _⟩ := loop_done env hu o hh fs _ [] fs hap hcon
    (fun _ _ => rfl) (by simp [Dict.WF, Dict.keys])
  refine ⟨st, fs', ?_, h2, ?_, h5, ?_⟩
  · rw [structure_eq env o files outs fs hex ho, h1, fst_zip _ _ hl]
  · intro f; rw [h3, fst_zip _ _ hl]; simp [Dict.keys]
  · intro q hq
    refine h6 q ?_
    rw [List.map_snd_zip (by omega)]
    exact hq

/-- C54: the three lists of the report divide the files of the status, and a file is in the list of its
entry: succeeded when validated and written, failed when validated but not written, invalid otherwise. -/
theorem C54_report (st : Dict Str OpResult) (wf : st.keys.Nodup) :
    ((report st).succeeded ++ (report st).failed ++ (report st).invalid).Perm st.keys ∧
    ∀ f r, Dict.get? st f = some r →
      (f ∈ (report st).succeeded ↔ r.validated = true ∧ r.structured = true) ∧
      (f ∈ (report st).failed ↔ r.validated = true ∧ r.structured = false) ∧
      (f ∈ (report st).invalid ↔ r.validated = false) := by
  refine ⟨report_perm st, ?_⟩
  intro f r hr
  have hm := Dict.get?_some_mem hr
  have huniq : ∀ r', (f, r') ∈ st → r' = r := by
    intro r' h'
    have := Dict.get?_of_mem wf h'
    rw [hr] at this
    injection this with this; exact this.symm
  obtain ⟨a, b, c⟩ := report_mem st f
  refine ⟨?_, ?_, ?_⟩
  · rw [a]
    constructor
    · rintro ⟨r', h', h⟩; rw [huniq r' h'] at h; exact h
    · intro h; exact ⟨r, hm, h⟩
  · rw [b]
    constructor
    · rintro ⟨r', h', h⟩; rw [huniq r' h'] at h; exact h
    · intro h; exact ⟨r, hm, h⟩
  · rw [c]
    constructor
    · rintro ⟨r', h', h⟩; rw [huniq r' h'] at h; exact h
    · intro h; exact ⟨r, hm, h⟩

/-- C54: with halt-on-error, if the file at position `k` is the first that does not succeed, the exception
is raised, exactly the files up to `k` are processed, and only their outputs can have changed. -/
theorem C54_halt (env : Env D C) (hu : Undisturbed env) (o : Opts) (hh : o.haltOnError = true)
    (files outs : List Str) (fs : Files C) (hex : ∀ f ∈ files, fs (env.abspath f) ≠ none)
    (ho : outputs env o (files.map env.abspath) = .ok outs)
    (hap : Apart ((files.map env.abspath).zip outs)) (k : Nat) (f out : Str)
    (hf : (files.map env.abspath)[k]? = some f) (hout : outs[k]? = some out)
    (hbad : ¬ Succeeds env o fs f out)
    (hgood : ∀ q ∈ ((files.map env.abspath).zip outs).take k, Succeeds env o fs q.1 q.2) :
    ∃ e fs', structure_ env o files fs = .ok (.raised e fs', (files.map env.abspath).take (k + 1)) ∧
      ∀ q, q ∉ outs.take (k + 1) → fs' q = fs q := by
  have hl := outputs_length env o _ outs ho
  have hk : ((files.map env.abspath).zip outs)[k]? = some (f, out) := by
    rw [List.getElem?_zip_eq_some]; exact ⟨hf, hout⟩
  obtain ⟨e, fs', h1, h2⟩ := loop_halts env hu o hh fs _ [] fs hap (fun _ _ => rfl) k (f, out) hk hbad hgood
  refine ⟨e, fs', ?_, ?_⟩
  · rw [structure_eq env o files outs fs hex ho, h1, List.map_take, fst_zip _ _ hl]
  · intro q hq
    refine h2 q ?_
    rw [List.map_take, List.map_snd_zip (by omega)]
    exact hq

/-- C54 fails when a file does not exist: the command stops before any other file is looked at, whatever
the other files are and with or without halt-on-error. -/
theorem C54_missing_violated (env : Env D C) (o : Opts) (files : List Str) (fs : Files C) (f : Str)
    (hf : f ∈ files) (hm : fs (env.abspath f) = none) : structure_ env o files fs = .error .fileNotFound := by
  unfold structure_
  have : (files.map env.abspath).any (fun f => (fs f).isNone) = true := by
    rw [List.any_eq_true]
    exact ⟨env.abspath f, List.mem_map.mpr ⟨f, hf, rfl⟩, by simp [hm]⟩
  simp only [this, if_true]

/-- C55: automatically chosen outputs of two inputs are the same file exactly when the inputs have the
same name without directory and extension. -/
theorem C55_names_partial (env : Env D C) (o : Opts) (files outs : List Str)
    (ho : outputs env o files = .ok outs) (hauto : o.outputDir ≠ none ∨ o.outputFilenames = [])
    (i j : Nat) (p q a b : Str) (hi : files[i]? = some p) (hj : files[j]? = some q)
    (ha : outs[i]? = some a) (hb : outs[j]? = some b) :
    a = b ↔ ∃ s, IsStem p s ∧ IsStem q s := by
  have key : ∃ dir, outs = files.map
      (fun f => addSuffix f dir "_structured".toList ".json.gz".toList) := by
    unfold outputs at ho
    split at ho
    · rename_i d _; injection ho with ho; exact ⟨_, ho.symm⟩
    · rename_i hd
      rw [hd] at hauto
      have h0 : o.outputFilenames = [] := by simpa using hauto
      simp only [h0, ne_eq, not_true, if_false] at ho
      injection ho with ho; exact ⟨_, ho.symm⟩
  obtain ⟨dir, rfl⟩ := key
  rw [List.getElem?_map, hi] at ha
  rw [List.getElem?_map, hj] at hb
  simp only [Option.map_some, Option.some.injEq] at ha hb
  subst ha hb
  rw [addSuffix_eq_iff p q dir _ _ (by decide) (by decide) (by decide)]
  simp only [stem_iff]
  constructor
  · intro h; exact ⟨_, rfl, h.symm⟩
  · rintro ⟨s, h1, h2⟩; rw [h1, h2]

/-- C55: when different inputs have different outputs, the structured form of every file that could be
structured is on disk at the end, in the file the status names. -/
theorem C55_kept_partial (env : Env D C) (hu : Undisturbed env) (o : Opts) (hh : o.haltOnError = false)
    (hv : o.validationOnly = false)
    (files outs : List Str) (fs : Files C) (hex : ∀ f ∈ files, fs (env.abspath f) ≠ none)
    (ho : outputs env o (files.map env.abspath) = .ok outs)
    (hap : Apart ((files.map env.abspath).zip outs)) (hcon : Consistent ((files.map env.abspath).zip outs))
    (hinj : ∀ p ∈ (files.map env.abspath).zip outs, ∀ q ∈ (files.map env.abspath).zip outs,
      p.2 = q.2 → p.1 = q.1) :
    ∃ st fs' l, structure_ env o files fs = .ok (.done st fs', l) ∧
      ∀ p ∈ (files.map env.abspath).zip outs, ∀ c', Written env fs p.1 p.2 c' →
        fs' p.2 = some c' ∧ ∃ r, Dict.get? st p.1 = some r ∧ r.output = some p.2 := by
  obtain ⟨st, fs', h1, _, _, _, h5, _, h7⟩ := loop_done env hu o hh fs _ [] fs hap hcon
    (fun _ _ => rfl) (by simp [Dict.WF, Dict.keys])
  refine ⟨st, fs', _, by rw [structure_eq env o files outs fs hex ho, h1], ?_⟩
  intro p hp c' hw
  refine ⟨h7 hinj hv p hp c' hw, ?_⟩
  obtain ⟨r, hr, ht⟩ := h5 p hp
  have hs := ht.structured.mpr ⟨hv, c', hw⟩
  refine ⟨r, hr, ?_⟩
  rw [ht.output, hs]; rfl

/-- C55 fails: a file and another one of the same name in another directory, or with another extension,
get the same output; `x` and `y` are the extensions. -/
theorem C55_violated (env : Env D C) (dir d e n x y : Str) (hn : '/' ∉ n) (hx : '/' ∉ x) (hy : '/' ∉ y)
    (hx' : '.' ∉ x) (hy' : '.' ∉ y) (c : Char) (hc : c ∈ n) (hc' : c ≠ '.') :
    ∃ out, outputs env { cwd := dir } [d ++ '/' :: n ++ '.' :: x, e ++ '/' :: n ++ '.' :: y] =
      .ok [out, out] := by
  have hs : ∀ d x : Str, '/' ∉ x → '.' ∉ x → IsStem (d ++ '/' :: n ++ '.' :: x) n := by
    intro d x h1 h2
    refine ⟨d ++ ['/'], '.' :: x, by simp, Or.inr ⟨d, rfl⟩, ?_, Or.inr ⟨x, rfl, h2, c, hc, hc'⟩⟩
    simp [hn, h1]
  refine ⟨addSuffix (d ++ '/' :: n ++ '.' :: x) dir "_structured".toList ".json.gz".toList, ?_⟩
  · simp only [outputs, ne_eq, not_true, if_false, List.map_cons, List.map_nil]
    rw [(addSuffix_eq_iff (e ++ '/' :: n ++ '.' :: y) (d ++ '/' :: n ++ '.' :: x) dir _ _ (by decide) (by decide)
      (by decide)).mpr]
    rw [(stem_iff _ n).mp (hs d x hx hx'), (stem_iff _ n).mp (hs e y hy hy')]

/-! ### Concrete cases -/

/-- contents are text; a file saying "bad" is invalid, one saying "odd" cannot be structured, and the
structured form is the text with an exclamation mark -/
def demoEnv : Env Str Str where
  abspath := id
  md5 := id
  load := fun _ c => if c = "unreadable".toList then .error (.other "ValueError".toList) else .ok c
  schema := fun _ => "schema.yaml".toList
  validate := fun d => .ok (d ≠ "bad".toList, "is bad".toList)
  structured := fun d => if d = "odd".toList then .error (.other "IndexError".toList) else .ok d
  parameters := id
  save := fun _ d => (d ++ "!".toList, none)

def demoFs : Files Str := fun p =>
  if p = "/a/x.csv".toList then some "one".toList else if p = "/a/y.csv".toList then some "bad".toList
  else if p = "/a/z.csv".toList then some "odd".toList else if p = "/b/x.csv".toList then some "two".toList
  else if p = "/a/u.csv".toList then some "unreadable".toList
  else none

def demoFiles : List Str := ["/a/y.csv".toList, "/a/u.csv".toList, "/a/z.csv".toList, "/a/x.csv".toList]

def demoOpts : Opts := { cwd := "/o".toList }

theorem demo_undisturbed : Undisturbed demoEnv where
  load := by
    intro f c h
    unfold demoEnv at h
    dsimp only at h
    split at h <;> cases h
  validate := by intro d h; cases h
  structured := by
    intro d h
    unfold demoEnv at h
    dsimp only at h
    split at h <;> cases h
  save := by intro p d h; cases h

/-- the report and the file at `p` after a run that reached the end -/
def shown (p : Str) (x : Except Err (End Str × List Str)) :
    Option (Report × Option Str × List Str) :=
  match x with
  | .ok (.done st fs, l) => some (report st, fs p, l)
  | _ => none

/-- three failing files do not keep the fourth from being structured -/
example : shown "/o/x_structured.json.gz".toList (structure_ demoEnv demoOpts demoFiles demoFs) =
    some ({ succeeded := ["/a/x.csv".toList], failed := ["/a/z.csv".toList],
            invalid := ["/a/y.csv".toList, "/a/u.csv".toList] }, some "one!".toList, demoFiles) := by
  decide +kernel

/-- the hypotheses of the theorems hold for it -/
example : (∀ f ∈ demoFiles, demoFs (demoEnv.abspath f) ≠ none) ∧
    outputs demoEnv demoOpts (demoFiles.map demoEnv.abspath) = .ok ["/o/y_structured.json.gz".toList,
      "/o/u_structured.json.gz".toList, "/o/z_structured.json.gz".toList,
      "/o/x_structured.json.gz".toList] ∧
    Apart (demoFiles.zip ["/o/y_structured.json.gz".toList, "/o/u_structured.json.gz".toList,
      "/o/z_structured.json.gz".toList, "/o/x_structured.json.gz".toList]) ∧
    Consistent (demoFiles.zip ["/o/y_structured.json.gz".toList, "/o/u_structured.json.gz".toList,
      "/o/z_structured.json.gz".toList, "/o/x_structured.json.gz".toList]) := by
  refine ⟨by decide +kernel, by decide +kernel, ?_, ?_⟩
  · unfold Apart; decide +kernel
  · unfold Consistent; decide +kernel

/-- with halt-on-error the second file is not looked at -/
example : (match structure_ demoEnv { demoOpts with haltOnError := true }
    ["/a/x.csv".toList, "/a/z.csv".toList, "/b/x.csv".toList] demoFs with
    | .ok (.raised e _, l) => some (e, l)
    | _ => none) = some (.other "IndexError".toList, ["/a/x.csv".toList, "/a/z.csv".toList]) := by
  decide +kernel

/-- the consequence of C55's failure: of two files of the same name both are reported as written, and only
the second is on disk -/
theorem C55_lost_violated :
    shown "/o/x_structured.json.gz".toList (structure_ demoEnv demoOpts ["/a/x.csv".toList, "/b/x.csv".toList] demoFs) =
      some ({ succeeded := ["/a/x.csv".toList, "/b/x.csv".toList] }, some "two!".toList,
        ["/a/x.csv".toList, "/b/x.csv".toList]) := by
  decide +kernel

/-- C54 fails when an output is a later input: a file that is invalid on its own is reported as
structured, because an earlier output replaced it -/
theorem C54_overwritten_violated : ∃ (env : Env Str Str) (o : Opts) (files : List Str) (fs : Files Str)
    (st : Dict Str OpResult) (fs' : Files Str) (l : List Str) (f : Str) (r : OpResult),
    Undisturbed env ∧ f ∈ files ∧ structure_ env o files fs = .ok (.done st fs', l) ∧
    Dict.get? st f = some r ∧ r.structured = true ∧ ¬ Valid env fs f := by
  let o : Opts := { demoOpts with outputFilenames := ["/a/y.csv".toList, "/o/y".toList] }
  let files := ["/a/x.csv".toList, "/a/y.csv".toList]
  have key : (match structure_ demoEnv o files demoFs with
    | .ok (.done st _, _) => match Dict.get? st "/a/y.csv".toList with
      | some r => r.structured
      | none => false
    | _ => false) = true := by decide +kernel
  split at key
  · rename_i st fs' l h
    split at key
    · rename_i r hr
      refine ⟨demoEnv, o, files, demoFs, st, fs', l, "/a/y.csv".toList, r, demo_undisturbed, by decide, h, hr,
        key, ?_⟩
      rintro ⟨c, d, why, h1, h2, h3⟩
      have e1 : demoFs "/a/y.csv".toList = some "bad".toList := by decide +kernel
      rw [e1] at h1; cases h1
      have e2 : demoEnv.load "/a/y.csv".toList "bad".toList = .ok "bad".toList := rfl
      rw [e2] at h2; cases h2
      have e3 : demoEnv.validate "bad".toList = .ok (false, "is bad".toList) := by rfl
      rw [e3] at h3; cases h3
    · cases key
  · cases key

end Beep.Props.Batch
