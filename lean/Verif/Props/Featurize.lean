import Verif.Proof.Featurize
/-
C68: batch featurization.
-/
namespace Beep.Props.Featurize
open Beep Beep.Featurize Beep.Spec.Featurize Beep.Proof.Featurize
open Beep.Batch (Exc Files)

variable {D C F V B M : Type}

theorem featurize_eq (env : Env D C F V B M) (o : Opts) (hh : o.haltOnError = false) (files : List Str)
    (plan : List (F × Dict Str V)) (fs : Files C) (s : State C F V B)
    (h : loop env o (files.map env.abspath) ⟨[], [], plan, fs⟩ = .ok s) :
    featurize env o files plan fs = .ok ⟨s.status, s.plan.map Prod.snd, env.matrix (bfs s), report plan.length s.status, s.files⟩ := by
  unfold featurize
  rw [h]
  simp only [hh]

/-- C68: if every file holds a structured datapath, featurizers leave what they are given as it was, no
intermediate file goes onto an input and nobody presses Ctrl-C, then every file has exactly one entry,
which has one entry for each requested featurizer, in order, saying what that featurizer does to that
file alone; the matrix is made of exactly the features that were created, with the requested
hyperparameters; and no other file is touched.
Missing: files that cannot be read and featurizers that change what they are given, see
`C68_unreadable_violated`, `C68_parameters_violated`, `C68_isolation_violated`. -/
theorem C68_accounts_partial (env : Env D C F V B M) (hp : Preserving env) (hu : Undisturbed env) (o : Opts)
    (hh : o.haltOnError = false) (files : List Str) (plan : List (F × Dict Str V)) (fs : Files C) (ds : List D)
    (hds : List.Forall₂ (Holds env fs) (files.map env.abspath) ds) (hap : Apart env o (files.map env.abspath) plan) :
    ∃ res, featurize env o files plan fs = .ok res ∧ res.status.keys.Nodup ∧
      (∀ f, f ∈ res.status.keys ↔ f ∈ files.map env.abspath) ∧
      (∀ f c d, f ∈ files.map env.abspath → fs f = some c → env.load f c = .ok d →
        ∃ r, Dict.get? res.status f = some r ∧ r.md5 = env.md5 c ∧
          List.Forall₂ (fun p x => Tells env o f d p x) plan r.featurizers) ∧
      res.hyperparameters = plan.map Prod.snd ∧ res.matrix = env.matrix (created env plan ds) ∧
      (∀ q, (o.saveIntermediates = true → ∀ f ∈ files.map env.abspath, ∀ p ∈ plan, q ≠ intermediate env o f p.1) →
        res.files q = fs q) := by
  obtain ⟨s, h1, h2, h3, h4, h5, h6, h7, _⟩ := loop_spec env hp hu o hh fs _ plan hap _ (fun _ h => h) ds hds
    ⟨[], [], plan, fs⟩ rfl (fun _ _ => rfl) (by simp [Dict.WF, Dict.keys]) (by intro f r h; cases h)
  refine ⟨_, featurize_eq env o hh files plan fs s h1, h4, ?_, ?_, by rw [h2], ?_, h7⟩
  · intro f
    rw [h5]
    simp [Dict.keys]
  · intro f c d hf hc hd
    have hk : f ∈ s.status.keys := (h5 f).mpr (Or.inr hf)
    obtain ⟨p, hpm, rfl⟩ := List.mem_map.mp hk
    have hg := Dict.get?_of_mem h4 (v := p.2) hpm
    exact ⟨p.2, hg, h6 _ _ hg c d hc hd⟩
  · simp only
    rw [bfs_eq env plan ds s h2 (by simpa using h3)]

/-- C68: intermediate files.  When no two inputs have the same name without directory and no class is
used twice, every created table of features is in the file named in its entry. -/
theorem C68_kept_partial (env : Env D C F V B M) (hp : Preserving env) (hu : Undisturbed env) (o : Opts)
    (hid : Identifiers env) (hh : o.haltOnError = false) (hs : o.saveIntermediates = true) (files : List Str)
    (plan : List (F × Dict Str V)) (fs : Files C)
    (ds : List D) (hds : List.Forall₂ (Holds env fs) (files.map env.abspath) ds)
    (hap : Apart env o (files.map env.abspath) plan) (hn : (plan.map (fun p => env.name p.1)).Nodup)
    (hb : ((files.map env.abspath).map Batch.basename).Nodup) :
    ∃ res, featurize env o files plan fs = .ok res ∧
      ∀ f ∈ files.map env.abspath, ∀ d, Holds env fs f d → ∀ p ∈ plan, ∀ b, featuresOf env p d = some b →
        res.files (intermediate env o f p.1) = some (env.dump p.1 p.2 b).1 := by
  obtain ⟨s, h1, _, _, _, _, _, _, h8⟩ := loop_spec env hp hu o hh fs _ plan hap _ (fun _ h => h) ds hds
    ⟨[], [], plan, fs⟩ rfl (fun _ _ => rfl) (by simp [Dict.WF, Dict.keys]) (by intro f r h; cases h)
  exact ⟨_, featurize_eq env o hh files plan fs s h1, h8 hid hn hb hs⟩

/-- C68 fails for intermediate files: exactly those of the same class for inputs of the same name (in
different directories), or of the same class with different hyperparameters, are one file. -/
theorem C68_intermediate_violated (env : Env D C F V B M) (hid : Identifiers env) (o : Opts) (file file' : Str)
    (f f' : F) : intermediate env o file f = intermediate env o file' f' ↔
      env.name f = env.name f' ∧ Batch.basename file = Batch.basename file' :=
  intermediate_iff env hid o file file' f f'

example : Batch.basename "/data/a/cell.json".toList = Batch.basename "/data/b/cell.json".toList := by decide

/-! ### without assumptions about the featurizers -/

theorem attempt_name (env : Env D C F V B M) (o : Opts) (file : Str) (f : F) (h : Dict Str V) (d : D) (fs : Files C) :
    (attempt env o file f h d fs).1.featurizer = env.name f := by
  unfold attempt
  split <;> try rfl
  split
  · dsimp only
    split <;> rfl
  · rfl

theorem attempt_trace (env : Env D C F V B M) (o : Opts) (file : Str) (f : F) (h : Dict Str V) (d : D) (fs : Files C) :
    (attempt env o file f h d fs).1.traceback = none := by
  unfold attempt
  split <;> try rfl
  split
  · dsimp only
    split <;> rfl
  · rfl

theorem applyAll_shape (env : Env D C F V B M) (o : Opts) (file : Str) (plan : List (F × Dict Str V)) (d : D) (fs : Files C)
    (x : List SubResult × List (Option B) × List (Dict Str V) × Files C) (h : applyAll env o file plan d fs = .ok x) :
    x.1.map SubResult.featurizer = plan.map (fun p => env.name p.1) ∧ x.2.1.length = plan.length ∧
      x.2.2.1.length = plan.length ∧ (o.haltOnError = true → ∀ r ∈ x.1, r.traceback = none) := by
  induction plan generalizing d fs x with
  | nil => rw [applyAll] at h; cases h; simp
  | cons p plan ih =>
    obtain ⟨f, hy⟩ := p
    have hname := attempt_name env o file f hy d fs
    have htr := attempt_trace env o file f hy d fs
    rw [applyAll] at h
    split at h
    · cases h
    · rename_i r b h' d' fs' e _ heq
      rw [heq] at hname htr
      split at h
      · cases h
      rename_i hhalt
      split at h
      · cases h
      rename_i rs bs hs fs'' hrec
      cases h
      obtain ⟨i1, i2, i3, i4⟩ := ih _ _ _ hrec
      refine ⟨by simp only [List.map_cons, i1]; simpa using hname, by simp [i2], by simp [i3], fun hc => absurd hc hhalt⟩
    · rename_i r b h' d' fs' heq
      rw [heq] at hname htr
      split at h
      · cases h
      rename_i rs bs hs fs'' hrec
      cases h
      obtain ⟨i1, i2, i3, i4⟩ := ih _ _ _ hrec
      refine ⟨by simp only [List.map_cons, i1]; simpa using hname, by simp [i2], by simp [i3], ?_⟩
      intro hc r' hr'
      rcases List.mem_cons.mp hr' with rfl | hr'
      · exact htr
      · exact i4 hc r' hr'

/-- every entry of the status has the shape it should have -/
def Shaped (o : Opts) (names : List Str) (r : FileResult) : Prop :=
  r.featurizers.map SubResult.featurizer = names ∧ (o.haltOnError = true → ∀ x ∈ r.featurizers, x.traceback = none)

theorem loop_shape (env : Env D C F V B M) (o : Opts) (names : List Str) (files : List Str) (s s' : State C F V B)
    (hn : s.plan.map (fun p => env.name p.1) = names) (hwf : s.status.WF)
    (hst : ∀ f r, Dict.get? s.status f = some r → Shaped o names r)
    (h : loop env o files s = .ok s') :
    s'.status.WF ∧ (∀ f, f ∈ s'.status.keys ↔ f ∈ s.status.keys ∨ f ∈ files) ∧
      ∀ f r, Dict.get? s'.status f = some r → Shaped o names r := by
  induction files generalizing s with
  | nil => rw [loop] at h; cases h; exact ⟨hwf, by simp, hst⟩
  | cons file files ih =>
    rw [loop] at h
    split at h
    · cases h
    rename_i s1 h1
    unfold oneFile at h1
    split at h1
    · cases h1
    split at h1
    · cases h1
    rename_i d hd
    split at h1
    · cases h1
    rename_i rs bs hs fs hall
    cases h1
    obtain ⟨i1, i2, i3, i4⟩ := applyAll_shape env o file s.plan d s.files _ hall
    have hplan : ((s.plan.map Prod.fst).zip hs).map (fun p => env.name p.1) = names := by
      have : ((s.plan.map Prod.fst).zip hs).map (fun p => env.name p.1) =
          (((s.plan.map Prod.fst).zip hs).map Prod.fst).map env.name := by rw [List.map_map]; rfl
      rw [this, List.map_fst_zip (by simp only at i3; simp [i3]), List.map_map, ← hn]
      rfl
    obtain ⟨j1, j2, j3⟩ := ih _ hplan (Dict.WF_set hwf _ _) (by
      intro f r hr
      by_cases hf : file = f
      · subst hf
        rw [Dict.get?_set_self] at hr
        cases hr
        exact ⟨by rw [← hn]; exact i1, i4⟩
      · rw [Dict.get?_set_ne _ _ (fun h => hf h.symm)] at hr
        exact hst f r hr) h
    refine ⟨j1, ?_, j3⟩
    intro f
    rw [j2]
    simp only [Dict.mem_keys_set, List.mem_cons]
    tauto

/-- C68: whatever the featurizers do, when the command ends normally every file has exactly one entry and
each entry has one entry for each featurizer, in order; with halt-on-error nothing failed and the matrix
was made. -/
theorem C68_entries (env : Env D C F V B M) (o : Opts) (files : List Str) (plan : List (F × Dict Str V)) (fs : Files C)
    (res : Result C V M) (h : featurize env o files plan fs = .ok res) :
    res.status.keys.Nodup ∧ (∀ f, f ∈ res.status.keys ↔ f ∈ files.map env.abspath) ∧
      (∀ f r, Dict.get? res.status f = some r → r.featurizers.map SubResult.featurizer = plan.map (fun p => env.name p.1)) ∧
      (o.haltOnError = true → (∀ f r, Dict.get? res.status f = some r → ∀ x ∈ r.featurizers, x.traceback = none) ∧
        ∃ m, res.matrix = .ok m) := by
  unfold featurize at h
  split at h
  · cases h
  rename_i s hs
  obtain ⟨j1, j2, j3⟩ := loop_shape env o _ _ _ s rfl (by simp [Dict.WF, Dict.keys]) (by intro f r h; cases h) hs
  have hres : res.status = s.status := by
    dsimp only at h
    split at h <;> cases h
    rfl
  refine ⟨by rw [hres]; exact j1, ?_, ?_, ?_⟩
  · intro f
    rw [hres, j2]
    simp [Dict.keys]
  · intro f r hr
    rw [hres] at hr
    exact (j3 f r hr).1
  · intro hh
    refine ⟨?_, ?_⟩
    · intro f r hr
      rw [hres] at hr
      exact (j3 f r hr).2 hh
    · dsimp only at h
      rw [hh] at h
      split at h
      · cases h
      · rename_i hno
        cases h
        cases hm : env.matrix (bfs s) with
        | ok m => exact ⟨m, rfl⟩
        | error e => exact (hno e rfl hm).elim

/-- C68: the three lists of the report divide the files, and a file is in the list of its entry. -/
theorem C68_report (n : Nat) (st : Dict Str FileResult) :
    ((report n st).all ++ (report n st).some ++ (report n st).none).Perm (st.map (fun p => (p.1, nSuccess p.2))) ∧
    ∀ f k, ((f, k) ∈ (report n st).all ↔ k = n ∧ ∃ r, (f, r) ∈ st ∧ nSuccess r = k) ∧
      ((f, k) ∈ (report n st).none ↔ k = 0 ∧ k ≠ n ∧ ∃ r, (f, r) ∈ st ∧ nSuccess r = k) ∧
      ((f, k) ∈ (report n st).some ↔ k ≠ 0 ∧ k ≠ n ∧ ∃ r, (f, r) ∈ st ∧ nSuccess r = k) := by
  induction st with
  | nil => simp [report]
  | cons p st ih =>
    obtain ⟨f, r⟩ := p
    obtain ⟨ihp, ihm⟩ := ih
    rw [report]
    by_cases h1 : nSuccess r = n
    · rw [if_pos h1]
      refine ⟨by simpa using ihp, ?_⟩
      intro g k
      obtain ⟨a, b, c⟩ := ihm g k
      refine ⟨?_, ?_, ?_⟩
      · rw [List.mem_cons, a]
        constructor
        · rintro (h | ⟨h, r', h', h''⟩)
          · cases h; exact ⟨h1, r, List.mem_cons_self .., rfl⟩
          · exact ⟨h, r', List.mem_cons_of_mem _ h', h''⟩
        · rintro ⟨h, r', h', h''⟩
          rcases List.mem_cons.mp h' with h' | h'
          · cases h'; subst h''; exact Or.inl rfl
          · exact Or.inr ⟨h, r', h', h''⟩
      · rw [b]
        constructor
        · rintro ⟨h, h2, r', h', h''⟩; exact ⟨h, h2, r', List.mem_cons_of_mem _ h', h''⟩
        · rintro ⟨h, h2, r', h', h''⟩
          rcases List.mem_cons.mp h' with h' | h'
          · cases h'; exact absurd (h''.symm.trans h1) h2
          · exact ⟨h, h2, r', h', h''⟩
      · rw [c]
        constructor
        · rintro ⟨h, h2, r', h', h''⟩; exact ⟨h, h2, r', List.mem_cons_of_mem _ h', h''⟩
        · rintro ⟨h, h2, r', h', h''⟩
          rcases List.mem_cons.mp h' with h' | h'
          · cases h'; exact absurd (h''.symm.trans h1) h2
          · exact ⟨h, h2, r', h', h''⟩
    · rw [if_neg h1]
      by_cases h2 : nSuccess r = 0
      · rw [if_pos h2]
        refine ⟨?_, ?_⟩
        · simp only [List.map_cons]
          exact List.perm_middle.trans (ihp.cons _)
        intro g k
        obtain ⟨a, b, c⟩ := ihm g k
        refine ⟨?_, ?_, ?_⟩
        · rw [a]
          constructor
          · rintro ⟨h, r', h', h''⟩; exact ⟨h, r', List.mem_cons_of_mem _ h', h''⟩
          · rintro ⟨h, r', h', h''⟩
            rcases List.mem_cons.mp h' with h' | h'
            · cases h'; exact absurd (h''.trans h) h1
            · exact ⟨h, r', h', h''⟩
        · rw [List.mem_cons, b]
          constructor
          · rintro (h | ⟨h, h3, r', h', h''⟩)
            · cases h; exact ⟨h2, h1, r, List.mem_cons_self .., rfl⟩
            · exact ⟨h, h3, r', List.mem_cons_of_mem _ h', h''⟩
          · rintro ⟨h, h3, r', h', h''⟩
            rcases List.mem_cons.mp h' with h' | h'
            · cases h'; subst h''; exact Or.inl rfl
            · exact Or.inr ⟨h, h3, r', h', h''⟩
        · rw [c]
          constructor
          · rintro ⟨h, h3, r', h', h''⟩; exact ⟨h, h3, r', List.mem_cons_of_mem _ h', h''⟩
          · rintro ⟨h, h3, r', h', h''⟩
            rcases List.mem_cons.mp h' with h' | h'
            · cases h'; exact absurd (h''.symm.trans h2) h
            · exact ⟨h, h3, r', h', h''⟩
      · rw [if_neg h2]
        refine ⟨?_, ?_⟩
        · simp only [List.map_cons]
          have : ((report n st).all ++ (f, nSuccess r) :: (report n st).some ++ (report n st).none).Perm
              ((f, nSuccess r) :: ((report n st).all ++ (report n st).some ++ (report n st).none)) := by
            rw [List.append_assoc, List.cons_append, List.append_assoc]
            exact List.perm_middle
          exact this.trans (ihp.cons _)
        intro g k
        obtain ⟨a, b, c⟩ := ihm g k
        refine ⟨?_, ?_, ?_⟩
        · rw [a]
          constructor
          · rintro ⟨h, r', h', h''⟩; exact ⟨h, r', List.mem_cons_of_mem _ h', h''⟩
          · rintro ⟨h, r', h', h''⟩
            rcases List.mem_cons.mp h' with h' | h'
            · cases h'; exact absurd (h''.trans h) h1
            · exact ⟨h, r', h', h''⟩
        · rw [b]
          constructor
          · rintro ⟨h, h3, r', h', h''⟩; exact ⟨h, h3, r', List.mem_cons_of_mem _ h', h''⟩
          · rintro ⟨h, h3, r', h', h''⟩
            rcases List.mem_cons.mp h' with h' | h'
            · cases h'; exact absurd (h''.trans h) h2
            · exact ⟨h, h3, r', h', h''⟩
        · rw [List.mem_cons, c]
          constructor
          · rintro (h | ⟨h, h3, r', h', h''⟩)
            · cases h; exact ⟨h2, h1, r, List.mem_cons_self .., rfl⟩
            · exact ⟨h, h3, r', List.mem_cons_of_mem _ h', h''⟩
          · rintro ⟨h, h3, r', h', h''⟩
            rcases List.mem_cons.mp h' with h' | h'
            · cases h'; subst h''; exact Or.inl rfl
            · exact Or.inr ⟨h, h3, r', h', h''⟩

/-! ### the plan -/

theorem update_get (d : Dict Str V) (p : List (Str × V)) (wf : (p.map Prod.fst).Nodup) (k : Str) :
    Dict.get? (update d p) k = match Dict.get? p k with
      | some v => some v
      | none => Dict.get? d k := by
  induction p generalizing d with
  | nil => rfl
  | cons a p ih =>
    obtain ⟨k', v⟩ := a
    rw [List.map_cons, List.nodup_cons] at wf
    rw [update, ih _ wf.2]
    by_cases hk : k' = k
    · subst hk
      have hn : Dict.get? p k' = none := by
        cases hg : Dict.get? p k' with
        | none => rfl
        | some w =>
          have := Dict.get?_some_mem hg
          exact absurd (List.mem_map_of_mem (f := Prod.fst) this) wf.1
      rw [hn]
      simp only [Dict.get?_set_self]
      simp [Dict.get?]
    · have h1 : Dict.get? ((k', v) :: p) k = Dict.get? p k := by simp [Dict.get?, hk]
      rw [h1, Dict.get?_set_ne _ _ (fun h => hk h.symm)]

/-- C68: what is applied.  With `all_features` (or else `all_targets`) the native feature (target)
classes and nothing else by name; otherwise the named classes; then those given with hyperparameters.
Every hyperparameter has the given value, or the default if none was given. -/
theorem C68_plan (env : Env D C F V B M) (find : Str → Except Exc F) (feats targets names : List Str)
    (custom : List (Str × Dict Str V)) (hc : ∀ c ∈ custom, (c.2.map Prod.fst).Nodup) (out : List (F × Dict Str V))
    (h : plan env find feats targets names custom = .ok out) :
    ∃ base extra, out = base ++ extra ∧
      List.Forall₂ (fun n p => find n = .ok p.1 ∧ p.2 = env.defaults p.1)
        (if "all_features".toList ∈ names then feats else if "all_targets".toList ∈ names then targets else names) base ∧
      List.Forall₂ (fun c p => find c.1 = .ok p.1 ∧ ∀ k, Dict.get? p.2 k =
        match Dict.get? c.2 k with | some v => some v | none => Dict.get? (env.defaults p.1) k) custom extra := by
  unfold plan at h
  have hnames : chosen feats targets names = (if "all_features".toList ∈ names then feats
      else if "all_targets".toList ∈ names then targets else names) := rfl
  rw [← hnames]
  generalize chosen feats targets names = ns at h
  induction ns generalizing out with
  | nil =>
    rw [List.map_nil, List.nil_append] at h
    refine ⟨[], out, rfl, .nil, ?_⟩
    clear hnames
    induction custom generalizing out with
    | nil => cases h; exact .nil
    | cons c custom ih =>
      rw [List.map_cons, select] at h
      split at h
      · cases h
      rename_i f hf
      split at h
      · cases h
      rename_i rest hrest
      cases h
      refine .cons ⟨hf, ?_⟩ (ih (fun c hcm => hc c (List.mem_cons_of_mem _ hcm)) rest hrest)
      intro k
      exact update_get _ _ (hc c (List.mem_cons_self ..)) k
  | cons n ns ih =>
    rw [List.map_cons, List.cons_append, select] at h
    split at h
    · cases h
    rename_i f hf
    split at h
    · cases h
    rename_i rest hrest
    cases h
    obtain ⟨base, extra, h1, h2, h3⟩ := ih rest hrest
    exact ⟨_ :: base, extra, by rw [h1]; rfl, .cons ⟨hf, rfl⟩ h2, h3⟩

/-! ### violations -/

/-- C68 fails: one file that is missing or cannot be loaded ends the whole command, whatever the other
files are, and no status, no report and no matrix are written. -/
theorem C68_unreadable_violated (env : Env D C F V B M) (o : Opts) (hs : o.saveIntermediates = false) (files : List Str)
    (plan : List (F × Dict Str V)) (fs : Files C) (f : Str) (hf : f ∈ files.map env.abspath)
    (hbad : ∀ d, ¬ Holds env fs f d) : ∀ res, featurize env o files plan fs ≠ .ok res := by
  have key : ∀ (l : List Str) (s : State C F V B), s.files = fs → f ∈ l → ∀ s', loop env o l s ≠ .ok s' := by
    intro l
    induction l with
    | nil => intro s _ h; cases h
    | cons g l ih =>
      intro s hfs hm s' hl
      rw [loop] at hl
      split at hl
      · cases hl
      rename_i s1 h1
      have hfiles : s1.files = fs ∧ g ≠ f := by
        unfold oneFile at h1
        split at h1
        · cases h1
        rename_i c hc
        split at h1
        · cases h1
        rename_i d hd
        split at h1
        · cases h1
        rename_i rs bs hss fs' hall
        cases h1
        refine ⟨?_, ?_⟩
        · have : ∀ (pl : List (F × Dict Str V)) (d : D) (x : Files C) y, applyAll env o g pl d x = .ok y → y.2.2.2 = x := by
            intro pl
            induction pl with
            | nil => intro d x y h; rw [applyAll] at h; cases h; rfl
            | cons p pl ihp =>
              intro d x y h
              obtain ⟨ff, hh⟩ := p
              have hat : (attempt env o g ff hh d x).2.2.2.2.1 = x := by
                unfold attempt
                split <;> try rfl
                dsimp only
                rw [hs]
                simp
              rw [applyAll] at h
              split at h
              · cases h
              · rename_i heq
                rw [heq] at hat
                split at h
                · cases h
                split at h
                · cases h
                rename_i hrec
                cases h
                have := ihp _ _ _ hrec
                simp only at this hat ⊢
                rw [this, hat]
              · rename_i heq
                rw [heq] at hat
                split at h
                · cases h
                rename_i hrec
                cases h
                have := ihp _ _ _ hrec
                simp only at this hat ⊢
                rw [this, hat]
          have := this _ _ _ _ hall
          simp only at this ⊢
          rw [this, hfs]
        · rintro rfl
          exact hbad d ⟨c, by rw [← hfs]; exact hc, hd⟩
      rcases List.mem_cons.mp hm with h | h
      · exact hfiles.2 h.symm
      · exact ih s1 hfiles.1 h s' hl
  intro res h
  unfold featurize at h
  split at h
  · cases h
  rename_i s hl
  exact key _ _ rfl hf s hl

/-- two native featurizers, reduced to what they do to the datapath and to the hyperparameters; a
datapath is its diagnostic data, features are the rows (or the hyperparameter) they are computed from -/
inductive Native where
  | hppc
  | diagnostic
  | deltaQ
  deriving DecidableEq, Repr

def nativeApply (f : Native) (h : Dict Str Int) (d : List DiagRow) : Outcome (List DiagRow) × Dict Str Int × List DiagRow :=
  match f with
  | .deltaQ => (.built [], deltaQParams 40 h, d)
  | _ =>
    let d' := dropFinal ((Dict.get? h "test_time_filter_sec".toList).getD 1000000 : Int)
      ((Dict.get? h "cycle_index_filter".toList).getD 6) d
    (.built d', h, d')

def native : Env (List DiagRow) (List DiagRow) Native Int (List DiagRow) (List (Native × Dict Str Int × List DiagRow)) where
  abspath := id
  md5 := fun _ => []
  load := fun _ c => .ok c
  name := fun f => match f with
    | .hppc => "HPPCResistanceVoltageFeatures".toList
    | .diagnostic => "DiagnosticSummaryStats".toList
    | .deltaQ => "DeltaQFastCharge".toList
  defaults := fun _ => []
  apply := nativeApply
  dump := fun _ _ b => (b, none)
  matrix := .ok

def disk : Files (List DiagRow) := fun f => if f = "/a".toList then some [(5, 1), (5, 9)] else none

/-- the matrix of a run of the command -/
def matrixOf (plan : List (Native × Dict Str Int)) : Option (List (Native × Dict Str Int × List DiagRow)) :=
  match featurize native { outputDir := [] } ["/a".toList] plan disk with
  | .ok r => match r.matrix with
    | .ok m => some m
    | .error _ => none
  | .error _ => none

set_option synthInstance.maxSize 1000 in
/-- C68 fails: `DeltaQFastCharge` overwrites the hyperparameter `n_nominal_cycles` it was given, so the
matrix does not have the requested one. -/
theorem C68_parameters_violated :
    matrixOf [(.deltaQ, [("n_nominal_cycles".toList, 10)])] =
      some [(.deltaQ, [("n_nominal_cycles".toList, 40)], [])] := by decide +kernel

def early : Dict Str Int := [("test_time_filter_sec".toList, 1), ("cycle_index_filter".toList, 6)]
def never : Dict Str Int := [("test_time_filter_sec".toList, 100), ("cycle_index_filter".toList, 6)]

set_option synthInstance.maxSize 1000 in
/-- C68 fails: a featurizer removes rows from the datapath, and the next one gets what is left; its
features are not those it has when it is applied alone. -/
theorem C68_isolation_violated :
    matrixOf [(.diagnostic, never)] = some [(.diagnostic, never, [(5, 1), (5, 9)])] ∧
    matrixOf [(.hppc, early), (.diagnostic, never)] =
      some [(.hppc, early, [(5, 9)]), (.diagnostic, never, [(5, 9)])] := by
  constructor <;> decide +kernel

/-! ### non-vacuity -/

/-- a well behaved featurizer that fails on empty data -/
def tame : Env (List Int) (List Int) Unit Int Int (List Int) where
  abspath := id
  md5 := fun c => c.map (fun _ => 'x')
  load := fun _ c => .ok c
  name := fun _ => "Tame".toList
  defaults := fun _ => []
  apply := fun _ h d => (match d with
    | [] => .invalid "empty".toList
    | x :: _ => .built x, h, d)
  dump := fun _ _ b => ([b], none)
  matrix := fun l => .ok (l.map (fun p => p.2.2))

example : Preserving tame ∧ Undisturbed tame ∧ Identifiers tame := by
  refine ⟨fun _ _ _ => rfl, ⟨?_, ?_, ?_⟩, ?_⟩
  · intro f h d hc; cases d <;> cases hc
  · intro f h d hc; cases d <;> cases hc
  · intro f h b hc; cases hc
  · intro f; exact (by decide : '-' ∉ "Tame".toList ∧ '/' ∉ "Tame".toList)

def tameDisk : Files (List Int) := fun f => if f = "/d/a".toList then some [3, 4] else if f = "/d/b".toList then some [] else none

example : (match featurize tame { outputDir := "/o".toList, saveIntermediates := true } ["/d/a".toList, "/d/b".toList]
      [((), [])] tameDisk with
    | .ok r => decide (r.status.map (fun p => p.2.featurizers.map SubResult.featurized) = [[true], [false]] ∧
        (match r.matrix with | .ok m => decide (m = [3]) | .error _ => false) = true ∧
        r.files "/o/Tame-a".toList = some [3] ∧
        r.report = { all := [("/d/a".toList, 1)], some := [], none := [("/d/b".toList, 0)] })
    | .error _ => false) = true := by decide +kernel

end Beep.Props.Featurize
