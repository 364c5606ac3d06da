import Verif.Spec.ExitStatus
import Verif.Props.Batch
import Verif.Props.Featurize
/-
C174: the exit status of a command tells whether it did its work.
-/
namespace Beep.Props.ExitStatus
open Beep Beep.ExitStatus Beep.Spec.ExitStatus
open Beep.Batch (Exc Files)

variable {D C F V B M : Type}

/-! ### beep structure -/

/-- the loop reaches the end when nobody presses Ctrl-C and errors do not halt -/
theorem loop_end (env : Batch.Env D C) (hu : Spec.Batch.Undisturbed env) (o : Batch.Opts) (hh : o.haltOnError = false)
    (jobs : List (Str × Str)) (st : Dict Str Batch.OpResult) (fs : Files C) :
    ∃ st' fs' l, Batch.loop env o jobs st fs = (.done st' fs', l) := by
  induction jobs generalizing st fs with
  | nil => exact ⟨st, fs, [], rfl⟩
  | cons p jobs ih =>
    obtain ⟨f, out⟩ := p
    rw [Proof.Batch.loop_cons_go env o hh f out jobs st fs (Proof.Batch.attempt_undisturbed env hu _ _ _ _)]
    obtain ⟨a, b, l, h⟩ := ih _ _
    rw [h]
    exact ⟨a, b, _, rfl⟩

/-- with halting, the loop reaches the end exactly when every file succeeds -/
theorem loop_halt_iff (env : Batch.Env D C) (hu : Spec.Batch.Undisturbed env) (o : Batch.Opts) (hh : o.haltOnError = true)
    (fs0 : Files C) (jobs : List (Str × Str)) (st : Dict Str Batch.OpResult) (fs : Files C)
    (hap : ∀ p ∈ jobs, ∀ q ∈ jobs, p.2 ≠ q.1) (hsame : ∀ p ∈ jobs, fs p.1 = fs0 p.1) :
    ((∀ p ∈ jobs, Spec.Batch.Succeeds env o fs0 p.1 p.2) ∧
      ∃ st' fs' l, Batch.loop env o jobs st fs = (.done st' fs', l)) ∨
    ((¬ ∀ p ∈ jobs, Spec.Batch.Succeeds env o fs0 p.1 p.2) ∧
      ∃ e fs' l, Batch.loop env o jobs st fs = (.raised e fs', l)) := by
  induction jobs generalizing st fs with
  | nil => exact .inl ⟨by simp, st, fs, [], rfl⟩
  | cons p jobs ih =>
    obtain ⟨f, out⟩ := p
    have ha := Proof.Batch.attempt_spec env o.validationOnly fs f out
    have hni := Proof.Batch.attempt_undisturbed env hu o.validationOnly fs f out
    have hf : (Batch.attempt env o.validationOnly fs f out).2.2 = none ↔ Spec.Batch.Succeeds env o fs0 f out := by
      rw [ha.fine]
      unfold Spec.Batch.Succeeds
      have h0 := hsame (f, out) (by simp)
      split
      · exact Proof.Batch.valid_congr env fs fs0 f h0
      · exact exists_congr (fun c' => Proof.Batch.written_congr env fs fs0 f out c' h0)
    simp only [Batch.loop]
    rcases hx : Batch.attempt env o.validationOnly fs f out with ⟨r, fs', e⟩
    rw [hx] at ha hni hf
    cases e with
    | some e =>
      right
      cases e with
      | interrupt => exact absurd rfl hni
      | other w =>
        refine ⟨fun h => ?_, .other w, fs', [f], by simp only [hh, if_true]⟩
        have := hf.mpr (h (f, out) List.mem_cons_self)
        cases this
    | none =>
      have hs := hf.mp rfl
      have hrest := ih (Dict.set st f r) fs'
        (fun p hp q hq => hap p (by simp [hp]) q (by simp [hq]))
        (fun p hp => by
          have := ha.elsewhere p.1 (fun he => hap (f, out) (by simp) p (by simp [hp]) he.symm)
          simp only at this
          rw [this]
          exact hsame p (by simp [hp]))
      rcases hrest with ⟨h1, a, b, l, h2⟩ | ⟨h1, a, b, l, h2⟩
      · left
        refine ⟨?_, a, b, f :: l, by simp only [h2]⟩
        intro q hq
        rcases List.mem_cons.mp hq with rfl | hq
        · exact hs
        · exact h1 q hq
      · right
        exact ⟨fun h => h1 (fun q hq => h q (List.mem_cons_of_mem _ hq)), a, b, f :: l, by simp only [h2]⟩

/-- C174 (partial: nobody presses Ctrl-C).  With halt-on-error `beep structure` ends with status zero
exactly if every file was handled and the status file could be written. -/
theorem C174_halt_partial (env : Batch.Env D C) (hu : Spec.Batch.Undisturbed env) (o : Batch.Opts)
    (hh : o.haltOnError = true) (files outs : List Str) (fs : Files C)
    (hex : ∀ f ∈ files, fs (env.abspath f) ≠ none) (ho : Batch.outputs env o (files.map env.abspath) = .ok outs)
    (hap : Spec.Batch.Apart ((files.map env.abspath).zip outs)) (saved : Except Exc Unit) :
    structureStatus env o files fs saved = 0 ↔
      (∀ p ∈ (files.map env.abspath).zip outs, Spec.Batch.Succeeds env o fs p.1 p.2) ∧ saved = .ok () := by
  unfold structureStatus
  rw [Props.Batch.structure_eq env o files outs fs hex ho]
  rcases loop_halt_iff env hu o hh fs _ [] fs hap (fun _ _ => rfl) with ⟨h1, a, b, l, h2⟩ | ⟨h1, a, b, l, h2⟩
  · rw [h2]
    cases saved with
    | ok u =>
      simp only [structureEnding, processStatus, true_iff]
      exact ⟨h1, trivial⟩
    | error e => simp [structureEnding, processStatus]
  · rw [h2]
    simp only [structureEnding, processStatus, Nat.one_ne_zero, false_iff]
    exact fun h => h1 h.1

/-- C174 (partial: nobody presses Ctrl-C).  Without halt-on-error `beep structure` ends with status zero
exactly if the files exist, the output names fit and the status file could be written. -/
theorem C174_batch_partial (env : Batch.Env D C) (hu : Spec.Batch.Undisturbed env) (o : Batch.Opts)
    (hh : o.haltOnError = false) (files : List Str) (fs : Files C) (saved : Except Exc Unit) :
    structureStatus env o files fs saved = 0 ↔
      (∀ f ∈ files, fs (env.abspath f) ≠ none) ∧
      (o.outputDir = none → o.outputFilenames ≠ [] → o.outputFilenames.length = files.length) ∧ saved = .ok () := by
  by_cases hex : ∀ f ∈ files, fs (env.abspath f) ≠ none
  · cases ho : Batch.outputs env o (files.map env.abspath) with
    | error e =>
      have : ¬ (o.outputDir = none → o.outputFilenames ≠ [] → o.outputFilenames.length = files.length) := by
        intro h
        unfold Batch.outputs at ho
        split at ho
        · cases ho
        · rename_i hd
          split at ho
          · rename_i hne
            split at ho
            · cases ho
            · rename_i hlen
              apply hlen
              rw [h hd hne, List.length_map]
          · cases ho
      have hs : Batch.structure_ env o files fs = .error e := by
        unfold Batch.structure_
        have : (files.map env.abspath).any (fun f => (fs f).isNone) = false := by
          rw [List.any_eq_false]
          intro x hx
          obtain ⟨f, hf, rfl⟩ := List.mem_map.mp hx
          have := hex f hf
          cases hq : fs (env.abspath f) with
          | none => exact absurd hq this
          | some => simp
        simp only [this, Bool.false_eq_true, if_false, ho]
      unfold structureStatus
      rw [hs]
      simp only [structureEnding, processStatus]
      simp only [Nat.one_ne_zero, false_iff]
      exact fun h => this h.2.1
    | ok outs =>
      have hlen : o.outputDir = none → o.outputFilenames ≠ [] → o.outputFilenames.length = files.length := by
        intro hd hne
        unfold Batch.outputs at ho
        rw [hd] at ho
        simp only [hne, ne_eq, not_false_iff, if_true] at ho
        split at ho
        · rename_i h; rw [← h, List.length_map]
        · cases ho
      unfold structureStatus
      rw [Props.Batch.structure_eq env o files outs fs hex ho]
      obtain ⟨a, b, l, h⟩ := loop_end env hu o hh ((files.map env.abspath).zip outs) [] fs
      rw [h]
      cases saved with
      | ok u => simp only [structureEnding, processStatus, true_iff]; exact ⟨hex, hlen, trivial⟩
      | error e => simp [structureEnding, processStatus]
  · have hex' := hex
    push Not at hex'
    obtain ⟨f, hf, hn⟩ := hex'
    unfold structureStatus
    rw [Props.Batch.C54_missing_violated env o files fs f hf hn]
    simp only [structureEnding, processStatus, Nat.one_ne_zero, false_iff]
    exact fun h => hex h.1

/-- C174 does not hold: when Ctrl-C ends `beep structure` while a file is read, the exit status is zero,
although the file was not handled and no status file is written. -/
theorem C174_interrupted_violated (env : Batch.Env D C) (o : Batch.Opts) (f : Str) (files outs : List Str) (fs : Files C)
    (hex : ∀ g ∈ f :: files, fs (env.abspath g) ≠ none)
    (ho : Batch.outputs env o ((f :: files).map env.abspath) = .ok outs)
    (c : C) (hc : fs (env.abspath f) = some c) (hi : env.load (env.abspath f) c = .error .interrupt)
    (saved : Except Exc Unit) :
    structureStatus env o (f :: files) fs saved = 0 ∧
    ∃ fs' l, Batch.structure_ env o (f :: files) fs = .ok (.exited fs', l) := by
  have hl := Props.Batch.outputs_length env o _ outs ho
  cases outs with
  | nil => simp at hl
  | cons out outs =>
    have : Batch.structure_ env o (f :: files) fs = .ok (.exited fs, [env.abspath f]) := by
      rw [Props.Batch.structure_eq env o (f :: files) (out :: outs) fs hex ho]
      simp only [List.map_cons, List.zip_cons_cons, Batch.loop, Batch.attempt, hc, hi]
    refine ⟨?_, fs, _, this⟩
    unfold structureStatus
    rw [this]
    rfl

/-! ### beep featurize -/

theorem resolve_known (env : Featurize.Env D C F V B M) (lib : Library F) (names : List (Str × Option (Dict Str V)))
    (h : ∀ p ∈ names, Known lib p.1) : ∃ plan, resolve env lib names = .ok plan := by
  induction names with
  | nil => exact ⟨[], rfl⟩
  | cons p l ih =>
    obtain ⟨n, q⟩ := p
    obtain ⟨plan, hp⟩ := ih (fun x hx => h x (List.mem_cons_of_mem _ hx))
    have : ∃ f, lookup lib n = .ok f := by
      unfold lookup
      rcases h (n, q) List.mem_cons_self with ⟨f, hf⟩ | ⟨hd, f, hf⟩
      · simp only at hf; rw [hf]; exact ⟨f, rfl⟩
      · simp only at hd hf
        cases hn : lib.native n with
        | some g => exact ⟨g, rfl⟩
        | none => simp only [hd, not_true, if_false, hf]; exact ⟨f, rfl⟩
    obtain ⟨f, hf⟩ := this
    simp only [resolve, hf, hp]
    exact ⟨_, rfl⟩

/-- C174 does not hold: `beep featurize` with a name that is neither a native featurizer nor an importable
one refuses to start and ends with status zero. -/
theorem C174_unknown_violated (env : Featurize.Env D C F V B M) (lib : Library F) (o : Featurize.Opts) (files : List Str)
    (before after : List (Str × Option (Dict Str V))) (n : Str) (q : Option (Dict Str V)) (fs : Files C)
    (saved : Except Exc Unit) (hb : ∀ p ∈ before, Known lib p.1) (hn : lib.native n = none)
    (hx : '.' ∉ n ∨ ∃ f, lib.imported n = .ok (f, false)) :
    featurizeStatus env lib o files (before ++ (n, q) :: after) fs saved = 0 ∧
    resolve env lib (before ++ (n, q) :: after) = .error (.exit 0) := by
  have hl : lookup lib n = .error (.exit 0) := by
    unfold lookup contextExit
    simp only [hn]
    by_cases hd : '.' ∈ n
    · rcases hx with h | ⟨f, hf⟩
      · exact absurd hd h
      · simp only [hd, not_true, if_false, hf]
    · simp only [hd, not_false_iff, if_true]
  have hr : resolve env lib (before ++ (n, q) :: after) = .error (.exit 0) := by
    induction before with
    | nil => simp only [List.nil_append, resolve, hl]
    | cons p l ih =>
      obtain ⟨m, r⟩ := p
      obtain ⟨f, hf⟩ : ∃ f, lookup lib m = .ok f := by
        obtain ⟨plan, hp⟩ := resolve_known env lib [(m, r)] (by simpa using hb (m, r) List.mem_cons_self)
        cases hk : lookup lib m with
        | ok f => exact ⟨f, rfl⟩
        | error e => rw [resolve, hk] at hp; cases hp
      simp only [List.cons_append, resolve, hf, ih (fun x hx => hb x (List.mem_cons_of_mem _ hx))]
  refine ⟨?_, hr⟩
  unfold featurizeStatus featurizeEnding
  rw [hr]
  rfl

/-- the entries of a file that was got through with halting -/
theorem applyAll_halt (env : Featurize.Env D C F V B M) (o : Featurize.Opts) (hh : o.haltOnError = true) (file : Str)
    (plan : List (F × Dict Str V)) (d : D) (fs : Files C) (y) (h : Featurize.applyAll env o file plan d fs = .ok y) :
    ∀ r ∈ y.1, r.traceback = none := by
  induction plan generalizing d fs y with
  | nil => rw [Featurize.applyAll] at h; cases h; simp
  | cons p plan ih =>
    obtain ⟨f, hp⟩ := p
    have htr := Props.Featurize.attempt_trace env o file f hp d fs
    rw [Featurize.applyAll] at h
    split at h
    · cases h
    · simp only [hh, if_true] at h
      cases h
    · rename_i heq
      split at h
      · cases h
      rename_i hrec
      cases h
      intro r hr
      rcases List.mem_cons.mp hr with rfl | hr
      · rw [heq] at htr; exact htr
      · exact ih _ _ _ hrec r hr

theorem mem_set {κ ν : Type} [DecidableEq κ] {d : Dict κ ν} {k : κ} {v : ν} {p : κ × ν} (h : p ∈ Dict.set d k v) :
    p = (k, v) ∨ p ∈ d := by
  induction d with
  | nil => simpa [Dict.set] using h
  | cons a d ih =>
    obtain ⟨k', v'⟩ := a
    by_cases hk : k' = k
    · simp only [Dict.set, hk, if_true, List.mem_cons] at h
      rcases h with h | h
      · exact .inl h
      · exact .inr (List.mem_cons_of_mem _ h)
    · simp only [Dict.set, hk, if_false, List.mem_cons] at h
      rcases h with h | h
      · exact .inr (by rw [h]; exact List.mem_cons_self)
      · rcases ih h with h | h
        · exact .inl h
        · exact .inr (List.mem_cons_of_mem _ h)

theorem loop_halt (env : Featurize.Env D C F V B M) (o : Featurize.Opts) (hh : o.haltOnError = true)
    (files : List Str) (s s' : Featurize.State C F V B) (h : Featurize.loop env o files s = .ok s')
    (hs : NoFailure s.status) : NoFailure s'.status := by
  induction files generalizing s with
  | nil => rw [Featurize.loop] at h; cases h; exact hs
  | cons f l ih =>
    rw [Featurize.loop] at h
    split at h
    · cases h
    rename_i s1 h1
    refine ih s1 h ?_
    unfold Featurize.oneFile at h1
    split at h1
    · cases h1
    split at h1
    · cases h1
    split at h1
    · cases h1
    rename_i rs bs hs' fs' hall
    cases h1
    intro p hp
    rcases mem_set hp with rfl | hp
    · exact applyAll_halt env o hh f _ _ _ _ hall
    · exact hs p hp

/-- C174 (partial: nobody presses Ctrl-C).  When all names are known, `beep featurize` with halt-on-error
ends with status zero exactly if it reaches its end and the status file could be written; then every
featurizer was applied to every file without an exception and the matrix was made. -/
theorem C174_featurize_partial (env : Featurize.Env D C F V B M) (lib : Library F) (o : Featurize.Opts)
    (hh : o.haltOnError = true) (files : List Str) (names : List (Str × Option (Dict Str V))) (fs : Files C)
    (saved : Except Exc Unit) (hk : ∀ p ∈ names, Known lib p.1) :
    ∃ plan, resolve env lib names = .ok plan ∧
      (Featurize.featurize env o files plan fs ≠ .error .exited →
        (featurizeStatus env lib o files names fs saved = 0 ↔
          saved = .ok () ∧ ∃ res m, Featurize.featurize env o files plan fs = .ok res ∧ NoFailure res.status ∧
            res.matrix = .ok m)) := by
  obtain ⟨plan, hp⟩ := resolve_known env lib names hk
  refine ⟨plan, hp, fun hne => ?_⟩
  unfold featurizeStatus featurizeEnding
  simp only [hp]
  cases hf : Featurize.featurize env o files plan fs with
  | error e =>
    cases e with
    | exited => exact absurd hf hne
    | raised e => simp [processStatus]
  | ok res =>
    have hres : NoFailure res.status ∧ ∃ m, res.matrix = .ok m := by
      unfold Featurize.featurize at hf
      split at hf
      · cases hf
      rename_i s hl
      have hno := loop_halt env o hh _ _ _ hl (by intro p hp; cases hp)
      dsimp only at hf
      rw [hh] at hf
      cases hm : env.matrix (Featurize.bfs s) with
      | error e => rw [hm] at hf; cases hf
      | ok m =>
        rw [hm] at hf
        simp only [Except.ok.injEq] at hf
        rw [← hf]
        exact ⟨hno, m, rfl⟩
    obtain ⟨h1, m, h2⟩ := hres
    cases saved with
    | ok u =>
      simp only [processStatus, true_iff]
      exact ⟨trivial, res, m, rfl, h1, h2⟩
    | error e => simp [processStatus]

/-! ### Concrete cases -/

/-- the demo of C54; one file is interrupted -/
def stopped : Batch.Env Str Str :=
  { Props.Batch.demoEnv with load := fun f c => if c = "odd".toList then .error .interrupt else Props.Batch.demoEnv.load f c }

/-- statuses of runs: nothing wrong; with failing files; the same with halting; a missing file; Ctrl-C at
the second file -/
example : structureStatus Props.Batch.demoEnv { Props.Batch.demoOpts with haltOnError := true }
      ["/a/x.csv".toList] Props.Batch.demoFs (.ok ()) = 0 ∧
    structureStatus Props.Batch.demoEnv Props.Batch.demoOpts Props.Batch.demoFiles Props.Batch.demoFs (.ok ()) = 0 ∧
    structureStatus Props.Batch.demoEnv { Props.Batch.demoOpts with haltOnError := true } Props.Batch.demoFiles
      Props.Batch.demoFs (.ok ()) = 1 ∧
    structureStatus Props.Batch.demoEnv Props.Batch.demoOpts ["/none".toList] Props.Batch.demoFs (.ok ()) = 1 ∧
    structureStatus stopped { Props.Batch.demoOpts with haltOnError := true } ["/a/x.csv".toList, "/a/z.csv".toList]
      Props.Batch.demoFs (.ok ()) = 0 := by
  decide +kernel

/-- the hypotheses of `C174_interrupted_violated` -/
example : Props.Batch.demoFs (stopped.abspath "/a/z.csv".toList) = some "odd".toList ∧
    (match stopped.load (stopped.abspath "/a/z.csv".toList) "odd".toList with
      | .error .interrupt => true
      | _ => false) = true := by
  decide +kernel

/-- a library with one native featurizer -/
def lib : Library Props.Featurize.Native where
  native := fun n => if n = "HPPC".toList then some .hppc else none
  imported := fun _ => .error (.other "ModuleNotFoundError".toList)

/-- statuses of `beep featurize`: a known name; a misspelt one; a module that does not exist -/
example : featurizeStatus Props.Featurize.native lib { outputDir := [], haltOnError := true } ["/a".toList]
      [("HPPC".toList, none)] Props.Featurize.disk (.ok ()) = 0 ∧
    featurizeStatus Props.Featurize.native lib { outputDir := [], haltOnError := true } ["/a".toList]
      [("HPPC".toList, none), ("HPCP".toList, none)] Props.Featurize.disk (.ok ()) = 0 ∧
    featurizeStatus Props.Featurize.native lib { outputDir := [], haltOnError := true } ["/a".toList]
      [("a.b".toList, none)] Props.Featurize.disk (.ok ()) = 1 := by
  decide +kernel

example : Known lib "HPPC".toList ∧ lib.native "HPCP".toList = none ∧ '.' ∉ "HPCP".toList :=
  ⟨.inl ⟨.hppc, by decide +kernel⟩, by decide +kernel, by decide +kernel⟩

end Beep.Props.ExitStatus
