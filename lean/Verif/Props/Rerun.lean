import Verif.Spec.Rerun
import Verif.Props.Batch
import Verif.Props.Featurize

/-!
# C166: a killed batch can be started again
-/

namespace Beep.Props.Rerun

open Beep Batch Spec.Batch Spec.Rerun

variable {D C : Type}

open Classical in
/-- The outputs the rest of the run opens. -/
noncomputable def touched (env : Env D C) (o : Opts) : List (Str × Str) → Files C → List Str
  | [], _ => []
  | (f, out) :: jobs, fs =>
    (if Opens env o fs f then [out] else []) ++
      if GoesOn o (attempt env o.validationOnly fs f out).2.2 then touched env o jobs fs else []

/-- What one file does depends on the contents of that file only, and touches the output only if
it gets as far as opening it. -/
theorem attempt_congr (env : Env D C) (o : Opts) (a b : Files C) (f out : Str) (h : a f = b f) :
    (attempt env o.validationOnly a f out).1 = (attempt env o.validationOnly b f out).1 ∧
    (attempt env o.validationOnly a f out).2.2 = (attempt env o.validationOnly b f out).2.2 ∧
    ((Opens env o a f ∧ Opens env o b f ∧ ∃ c, (attempt env o.validationOnly a f out).2.1 = a.write out c ∧
        (attempt env o.validationOnly b f out).2.1 = b.write out c) ∨
      (¬ Opens env o a f ∧ ¬ Opens env o b f ∧ (attempt env o.validationOnly a f out).2.1 = a ∧
        (attempt env o.validationOnly b f out).2.1 = b)) := by
  unfold attempt
  rw [h]
  cases hc : b f with
  | none =>
    refine ⟨rfl, rfl, .inr ⟨?_, ?_, rfl, rfl⟩⟩ <;> rintro ⟨-, c, d, why, d', h1, -⟩
    · rw [h, hc] at h1; cases h1
    · rw [hc] at h1; cases h1
  | some c =>
    dsimp only
    cases hl : env.load f c with
    | error e =>
      refine ⟨rfl, rfl, .inr ⟨?_, ?_, rfl, rfl⟩⟩ <;> rintro ⟨-, c', d, why, d', h1, h2, -⟩
      · rw [h, hc] at h1; cases h1; rw [hl] at h2; cases h2
      · rw [hc] at h1; cases h1; rw [hl] at h2; cases h2
    | ok d =>
      dsimp only
      cases hv : env.validate d with
      | error e =>
        refine ⟨rfl, rfl, .inr ⟨?_, ?_, rfl, rfl⟩⟩ <;> rintro ⟨-, c', d', why, d'', h1, h2, h3, -⟩
        · rw [h, hc] at h1; cases h1; rw [hl] at h2; cases h2; rw [hv] at h3; cases h3
        · rw [hc] at h1; cases h1; rw [hl] at h2; cases h2; rw [hv] at h3; cases h3
      | ok x =>
        obtain ⟨ok, why⟩ := x
        cases ok with
        | false =>
          refine ⟨rfl, rfl, .inr ⟨?_, ?_, rfl, rfl⟩⟩ <;>
            rintro ⟨-, c', d', why, d'', h1, h2, h3, -⟩
          · rw [h, hc] at h1; cases h1; rw [hl] at h2; cases h2; rw [hv] at h3; cases h3
          · rw [hc] at h1; cases h1; rw [hl] at h2; cases h2; rw [hv] at h3; cases h3
        | true =>
          dsimp only
          rw [if_pos rfl]
          cases ho : o.validationOnly with
          | true =>
            refine ⟨rfl, rfl, .inr ⟨?_, ?_, rfl, rfl⟩⟩ <;> rintro ⟨h0, -⟩ <;> rw [ho] at h0 <;>
              cases h0
          | false =>
            simp only [Bool.false_eq_true, if_false, if_true, finish]
            cases hs : env.structured d with
            | error e =>
              refine ⟨rfl, rfl, .inr ⟨?_, ?_, rfl, rfl⟩⟩ <;>
                rintro ⟨-, c', d', why, d'', h1, h2, h3, h4⟩
              · rw [h, hc] at h1; cases h1; rw [hl] at h2; cases h2; rw [hs] at h4; cases h4
              · rw [hc] at h1; cases h1; rw [hl] at h2; cases h2; rw [hs] at h4; cases h4
            | ok d' =>
              have hb : Opens env o b f := ⟨ho, c, d, why, d', hc, hl, hv, hs⟩
              have ha : Opens env o a f := ⟨ho, c, d, why, d', h.trans hc, hl, hv, hs⟩
              dsimp only
              rcases hsv : env.save out d' with ⟨c', _ | e⟩
              · exact ⟨rfl, rfl, .inl ⟨ha, hb, c', rfl, rfl⟩⟩
              · exact ⟨rfl, rfl, .inl ⟨ha, hb, c', rfl, rfl⟩⟩

theorem opens_congr {env : Env D C} {o : Opts} {a b : Files C} {f : Str} (h : a f = b f) :
    Opens env o a f ↔ Opens env o b f := by
  rcases (attempt_congr env o a b f [] h).2.2 with ⟨h1, h2, -⟩ | ⟨h1, h2, -⟩
  · exact ⟨fun _ => h2, fun _ => h1⟩
  · exact ⟨fun h => absurd h h1, fun h => absurd h h2⟩

theorem touched_congr (env : Env D C) (o : Opts) (jobs : List (Str × Str)) (a b : Files C)
    (h : ∀ j ∈ jobs, a j.1 = b j.1) : touched env o jobs a = touched env o jobs b := by
  induction jobs with
  | nil => rfl
  | cons j jobs ih =>
    obtain ⟨f, out⟩ := j
    have hf : a f = b f := h (f, out) (by simp)
    have e := (attempt_congr env o a b f out hf).2.1
    have hi := ih fun j hj => h j (by simp [hj])
    have hop : Opens env o a f ↔ Opens env o b f := opens_congr hf
    have hg : GoesOn o (attempt env o.validationOnly a f out).2.2 ↔
        GoesOn o (attempt env o.validationOnly b f out).2.2 := by rw [e]
    rw [touched, touched, hi]
    by_cases h1 : Opens env o b f <;>
      by_cases h2 : GoesOn o (attempt env o.validationOnly b f out).2.2 <;>
      simp only [h1, h2, hop.mpr, hg.mpr, if_true, if_false, mt hop.mp, mt hg.mp, not_false_eq_true]

/-- Every job writes to a place that is not the input of any job. -/
theorem touched_out (env : Env D C) (o : Opts) (jobs : List (Str × Str)) (fs : Files C) (p : Str)
    (h : p ∈ touched env o jobs fs) : ∃ j ∈ jobs, p = j.2 := by
  induction jobs with
  | nil => simp [touched] at h
  | cons j jobs ih =>
    obtain ⟨f, out⟩ := j
    simp only [touched, List.mem_append] at h
    rcases h with h | h
    · split_ifs at h
      · simp at h; exact ⟨(f, out), by simp, h⟩
      · simp at h
    · split_ifs at h
      · obtain ⟨j, hj, e⟩ := ih h; exact ⟨j, by simp [hj], e⟩
      · simp at h

theorem killed_touched (env : Env D C) (o : Opts) (all jobs : List (Str × Str)) (ha : Apart all)
    (hsub : ∀ j ∈ jobs, j ∈ all) (fs x : Files C) (h : Killed env o jobs fs x) :
    ∀ p, p ∉ touched env o jobs fs → x p = fs p := by
  induction h with
  | now => intros; rfl
  | saving f out jobs fs c ho =>
    intro p hp
    have : p ≠ out := by
      rintro rfl
      exact hp (by simp [touched, ho])
    simp [Files.write, this]
  | later f out jobs fs fs' fs'' r e hat hg _ ih =>
    intro p hp
    have ih := ih fun j hj => hsub j (by simp [hj])
    have hfs' : ∀ q, q ∉ touched env o ((f, out) :: jobs) fs → fs' q = fs q := by
      intro q hq
      rcases (attempt_congr env o fs fs f out rfl).2.2 with ⟨h1, -, c, h2, -⟩ | ⟨-, -, h2, -⟩
      · rw [hat] at h2
        dsimp only at h2
        rw [h2]
        have : q ≠ out := by
          rintro rfl
          exact hq (by simp [touched, h1])
        simp [Files.write, this]
      · rw [hat] at h2
        dsimp only at h2
        rw [h2]
    have hin : ∀ j ∈ jobs, fs' j.1 = fs j.1 := by
      intro j hj
      apply hfs'
      intro hmem
      obtain ⟨j', hj', e'⟩ := touched_out env o _ fs _ hmem
      exact ha j' (hsub j' hj') j (hsub j (by simp [hj])) e'.symm
    rw [ih p, hfs' p hp]
    rw [touched_congr env o jobs fs' fs hin]
    intro hmem
    apply hp
    simp only [touched, List.mem_append]
    right
    rw [hat]
    simp [hg, hmem]

theorem loop_congr (env : Env D C) (o : Opts) (all : List (Str × Str)) (ha : Apart all) :
    ∀ (jobs : List (Str × Str)), (∀ j ∈ jobs, j ∈ all) → ∀ (a b : Files C)
      (st : Dict Str OpResult), (∀ p, p ∉ touched env o jobs b → a p = b p) →
      loop env o jobs st a = loop env o jobs st b := by
  intro jobs
  induction jobs with
  | nil =>
    intro _ a b st h
    have : a = b := funext fun p => h p (by simp [touched])
    rw [this]
  | cons j jobs ih =>
    obtain ⟨f, out⟩ := j
    intro hsub a b st h
    have hnot : ∀ j ∈ (f, out) :: jobs, j.1 ∉ touched env o ((f, out) :: jobs) b := by
      intro j hj hmem
      obtain ⟨j', hj', e'⟩ := touched_out env o _ b _ hmem
      exact ha j' (hsub j' hj') j (hsub j hj) e'.symm
    have hf : a f = b f := h f (hnot (f, out) (by simp))
    obtain ⟨h1, h2, h3⟩ := attempt_congr env o a b f out hf
    have hbfs : ∀ j ∈ jobs, (attempt env o.validationOnly b f out).2.1 j.1 = b j.1 := by
      intro j hj
      rcases h3 with ⟨-, ho, c, -, h4⟩ | ⟨-, -, -, h4⟩
      · rw [h4]
        have : j.1 ≠ out := fun e => ha (f, out) (hsub _ (by simp)) j (hsub j (by simp [hj])) e.symm
        simp [Files.write, this]
      · rw [h4]
    -- if the run goes on, the files after this one agree outside what is touched later
    have hnext : GoesOn o (attempt env o.validationOnly b f out).2.2 → ∀ st,
        loop env o jobs st (attempt env o.validationOnly a f out).2.1 =
          loop env o jobs st (attempt env o.validationOnly b f out).2.1 := by
      intro hg st
      apply ih (fun j hj => hsub j (by simp [hj]))
      intro p hp
      rw [touched_congr env o jobs _ b hbfs] at hp
      rcases h3 with ⟨-, ho, c, h4, h5⟩ | ⟨-, ho, h4, h5⟩
      · rw [h4, h5]
        simp only [Files.write]
        split_ifs with hpo
        · rfl
        · apply h
          simp only [touched, List.mem_append, hg, if_true, ho, if_true, not_or]
          exact ⟨by simpa using hpo, hp⟩
      · rw [h4, h5]
        apply h
        simp only [touched, List.mem_append, hg, if_true, ho, if_false, not_or]
        exact ⟨by simp, hp⟩
    -- if it stops here, they agree everywhere
    have hstop : ¬ GoesOn o (attempt env o.validationOnly b f out).2.2 →
        (attempt env o.validationOnly a f out).2.1 = (attempt env o.validationOnly b f out).2.1 := by
      intro hg
      funext p
      rcases h3 with ⟨-, ho, c, h4, h5⟩ | ⟨-, ho, h4, h5⟩
      · rw [h4, h5]
        simp only [Files.write]
        split_ifs with hpo
        · rfl
        · apply h
          simp only [touched, List.mem_append, hg, if_false, ho, if_true, not_or]
          exact ⟨by simpa using hpo, by simp⟩
      · rw [h4, h5]
        apply h
        simp only [touched, List.mem_append, hg, if_false, ho, not_or]
        exact ⟨by simp, by simp⟩
    rw [loop, loop]
    rcases haa : attempt env o.validationOnly a f out with ⟨r, fa, e⟩
    rcases hbb : attempt env o.validationOnly b f out with ⟨r', fb, e'⟩
    simp only [haa, hbb] at h1 h2 hnext hstop
    subst h1 h2
    match e with
    | none =>
      dsimp only
      rw [hnext trivial]
    | some .interrupt =>
      dsimp only
      rw [hstop id]
    | some (.other w) =>
      dsimp only
      by_cases hh : o.haltOnError = true
      · rw [if_pos hh, if_pos hh, hstop (by simp [GoesOn, hh])]
      · rw [if_neg hh, if_neg hh, hnext (by simpa [GoesOn] using hh)]

/-- The command killed at any moment, any number of times, and started again ends as one run that is
not killed: the same files, the same status, the same report; the runs of the files that are left out
after a halt are left out again.

`_partial`: no output may go to an input (`Apart`), see `C166_inplace_violated`. -/
theorem C166_rerun_partial (env : Env D C) (o : Opts) (files outs : List Str) (fs fs' : Files C)
    (ho : outputs env o (files.map env.abspath) = .ok outs)
    (ha : Apart ((files.map env.abspath).zip outs))
    (hk : KilledOften env o ((files.map env.abspath).zip outs) fs fs') :
    structure_ env o files fs' = structure_ env o files fs := by
  have hlen : outs.length = (files.map env.abspath).length := Props.Batch.outputs_length env o _ outs ho
  induction hk with
  | never => rfl
  | again a b c hab _ ih =>
    rw [ih]
    have ht := killed_touched env o _ _ ha (fun _ h => h) _ _ hab
    have hin : ∀ f ∈ files.map env.abspath, b f = a f := by
      intro f hf
      apply ht
      intro hmem
      obtain ⟨j', hj', e'⟩ := touched_out env o _ a _ hmem
      rw [← Props.Batch.fst_zip _ outs hlen] at hf
      obtain ⟨j, hj, rfl⟩ := List.mem_map.mp hf
      exact ha j' hj' j hj e'.symm
    have hany : (files.map env.abspath).any (fun f => (b f).isNone) =
        (files.map env.abspath).any (fun f => (a f).isNone) := by
      rw [Bool.eq_iff_iff, List.any_eq_true, List.any_eq_true]
      constructor <;> rintro ⟨f, hf, h⟩ <;> refine ⟨f, hf, ?_⟩
      · rw [← hin f hf]; exact h
      · rw [hin f hf]; exact h
    unfold structure_
    simp only [hany, ho]
    split_ifs
    · rfl
    · rw [loop_congr env o _ ha _ (fun _ h => h) b a [] ht]

/-- An output given as its own input: the command killed while it writes leaves nothing to start again
from, and the second run reports as invalid what one run structures. -/
theorem C166_inplace_violated : ∃ (env : Env Str Str) (o : Opts) (files outs : List Str) (fs fs' : Files Str),
    outputs env o (files.map env.abspath) = .ok outs ∧
    KilledOften env o ((files.map env.abspath).zip outs) fs fs' ∧
    structure_ env o files fs' ≠ structure_ env o files fs := by
  let o : Opts := { Props.Batch.demoOpts with outputFilenames := ["/a/x.csv".toList] }
  let fs' := Props.Batch.demoFs.write "/a/x.csv".toList "unreadable".toList
  refine ⟨Props.Batch.demoEnv, o, ["/a/x.csv".toList], ["/a/x.csv".toList], Props.Batch.demoFs, fs',
    by decide +kernel, .again _ fs' _ ?_ (.never _), ?_⟩
  · exact .saving _ _ [] _ _ ⟨rfl, "one".toList, "one".toList, "is bad".toList, "one".toList,
      by decide +kernel, by rfl, by rfl, by rfl⟩
  · intro h
    have h := congrArg (Props.Batch.shown []) h
    revert h
    decide +kernel

/-! ## `beep featurize` -/

section Featurize


variable {F V B M : Type}

/-- Every file is the same, or as each of two runs found it. -/
def Alike (x y a b : Files C) : Prop := ∀ p, a p = b p ∨ (a p = x p ∧ b p = y p)

theorem alike_write {x y a b : Files C} (h : Alike x y a b) (p : Str) (c : C) :
    Alike x y (a.write p c) (b.write p c) := by
  intro q
  simp only [Files.write]
  split_ifs
  · exact .inl rfl
  · exact h q

/-- The files that are read stay the same in both runs. -/
theorem alike_read {a b : Files C} {f : Str} (h : a f = b f) (p : Str) (c : C) :
    (a.write p c) f = (b.write p c) f := by
  simp only [Files.write]
  split_ifs
  · rfl
  · exact h

theorem applyAll_alike (env : Featurize.Env D C F V B M) (o : Featurize.Opts) (file : Str)
    (inputs : List Str) (x y : Files C) (l : List (F × Dict Str V)) :
    ∀ (d : D) (a b : Files C), Alike x y a b → (∀ f ∈ inputs, a f = b f) →
      (∃ s, Featurize.applyAll env o file l d a = .error s ∧
        Featurize.applyAll env o file l d b = .error s) ∨
      (∃ rs bs hs a' b', Featurize.applyAll env o file l d a = .ok (rs, bs, hs, a') ∧
        Featurize.applyAll env o file l d b = .ok (rs, bs, hs, b') ∧ Alike x y a' b' ∧
        ∀ f ∈ inputs, a' f = b' f) := by
  induction l with
  | nil => intro d a b h hi; exact .inr ⟨[], [], [], a, b, rfl, rfl, h, hi⟩
  | cons q l ih =>
    obtain ⟨f, h0⟩ := q
    intro d a b h hi
    have hatt : ∃ r bb h' d' e a' b', Featurize.attempt env o file f h0 d a = (r, bb, h', d', a', e) ∧
        Featurize.attempt env o file f h0 d b = (r, bb, h', d', b', e) ∧ Alike x y a' b' ∧
        ∀ f ∈ inputs, a' f = b' f := by
      unfold Featurize.attempt
      rcases hap : env.apply f h0 d with ⟨oc, h', d'⟩
      cases oc with
      | refused e => exact ⟨_, _, _, _, _, a, b, rfl, rfl, h, hi⟩
      | invalid e => exact ⟨_, _, _, _, _, a, b, rfl, rfl, h, hi⟩
      | failed e => exact ⟨_, _, _, _, _, a, b, rfl, rfl, h, hi⟩
      | built bb =>
        dsimp only
        split_ifs
        · rcases hd : env.dump f h' bb with ⟨c, _ | e⟩
          · exact ⟨_, _, _, _, _, _, _, rfl, rfl, alike_write h _ c,
              fun f hf => alike_read (hi f hf) _ c⟩
          · exact ⟨_, _, _, _, _, _, _, rfl, rfl, alike_write h _ c,
              fun f hf => alike_read (hi f hf) _ c⟩
        · exact ⟨_, _, _, _, _, a, b, rfl, rfl, h, hi⟩
    obtain ⟨r, bb, h', d', e, a', b', ha, hb, hab, hi'⟩ := hatt
    simp only [Featurize.applyAll, ha, hb]
    match e with
    | some .interrupt => exact .inl ⟨_, rfl, rfl⟩
    | some (.other w) =>
      dsimp only
      split_ifs
      · exact .inl ⟨_, rfl, rfl⟩
      · rcases ih d' a' b' hab hi' with ⟨s, h1, h2⟩ | ⟨rs, bs, hs, a'', b'', h1, h2, h3, h4⟩
        · rw [h1, h2]; exact .inl ⟨_, rfl, rfl⟩
        · rw [h1, h2]; exact .inr ⟨_, _, _, a'', b'', rfl, rfl, h3, h4⟩
    | none =>
      dsimp only
      rcases ih d' a' b' hab hi' with ⟨s, h1, h2⟩ | ⟨rs, bs, hs, a'', b'', h1, h2, h3, h4⟩
      · rw [h1, h2]; exact .inl ⟨_, rfl, rfl⟩
      · rw [h1, h2]; exact .inr ⟨_, _, _, a'', b'', rfl, rfl, h3, h4⟩

theorem loop_alike (env : Featurize.Env D C F V B M) (o : Featurize.Opts) (inputs : List Str)
    (x y : Files C) (files : List Str) (hsub : ∀ f ∈ files, f ∈ inputs) :
    ∀ (s t : Featurize.State C F V B), s.status = t.status → s.features = t.features → s.plan = t.plan →
      Alike x y s.files t.files → (∀ f ∈ inputs, s.files f = t.files f) →
      (∃ e, Featurize.loop env o files s = .error e ∧ Featurize.loop env o files t = .error e) ∨
      (∃ s' t', Featurize.loop env o files s = .ok s' ∧ Featurize.loop env o files t = .ok t' ∧
        s'.status = t'.status ∧ s'.features = t'.features ∧ s'.plan = t'.plan ∧
        Alike x y s'.files t'.files) := by
  induction files with
  | nil => intro s t h1 h2 h3 h4 h5; exact .inr ⟨s, t, rfl, rfl, h1, h2, h3, h4⟩
  | cons f files ih =>
    intro s t h1 h2 h3 h4 h5
    have hf := h5 f (hsub f (by simp))
    simp only [Featurize.loop, Featurize.oneFile, hf]
    cases hc : t.files f with
    | none => exact .inl ⟨_, rfl, rfl⟩
    | some c =>
      dsimp only
      cases hl : env.load f c with
      | error e => exact .inl ⟨_, rfl, rfl⟩
      | ok d =>
        dsimp only
        rw [h3]
        rcases applyAll_alike env o f inputs x y t.plan d s.files t.files h4 h5 with
          ⟨e, g1, g2⟩ | ⟨rs, bs, hs, a', b', g1, g2, g3, g4⟩
        · rw [g1, g2]; exact .inl ⟨_, rfl, rfl⟩
        · rw [g1, g2]
          dsimp only
          exact ih (fun f hf => hsub f (by simp [hf])) _ _ (by simp [h1]) (by simp [h2]) rfl g3 g4

/-- What an earlier run of `beep featurize` left behind, killed or not, does not matter to the next one
as long as the inputs are as they were: the same status, hyperparameters, matrix and report, and every
file the run writes is the same. -/
theorem C166_featurize (env : Featurize.Env D C F V B M) (o : Featurize.Opts) (files : List Str)
    (plan : List (F × Dict Str V)) (fs fs' : Files C)
    (h : ∀ f ∈ files, fs (env.abspath f) = fs' (env.abspath f)) :
    SameEnd fs fs' (Featurize.featurize env o files plan fs) (Featurize.featurize env o files plan fs') := by
  have := loop_alike env o (files.map env.abspath) fs fs' (files.map env.abspath) (fun _ h => h)
    { status := [], features := [], plan := plan, files := fs }
    { status := [], features := [], plan := plan, files := fs' } rfl rfl rfl (fun p => .inr ⟨rfl, rfl⟩)
    (by intro f hf; obtain ⟨g, hg, rfl⟩ := List.mem_map.mp hf; exact h g hg)
  unfold Featurize.featurize
  rcases this with ⟨e, h1, h2⟩ | ⟨s, t, h1, h2, h3, h4, h5, h6⟩
  · rw [h1, h2]; rfl
  · rw [h1, h2]
    have hb : Featurize.bfs s = Featurize.bfs t := by simp only [Featurize.bfs, h4, h5]
    dsimp only
    rw [hb, h3, h5]
    rcases o.haltOnError with _ | _ <;> rcases env.matrix (Featurize.bfs t) with e | m
    · exact ⟨rfl, rfl, rfl, rfl, h6⟩
    · exact ⟨rfl, rfl, rfl, rfl, h6⟩
    · rfl
    · exact ⟨rfl, rfl, rfl, rfl, h6⟩

end Featurize

/-! ## The hypotheses can be met -/

/-- Four files of which the last can be structured: killed while its output is written, started again
and killed at once. -/
example : KilledOften Props.Batch.demoEnv Props.Batch.demoOpts
    ((Props.Batch.demoFiles.map Props.Batch.demoEnv.abspath).zip ["/o/y_structured.json.gz".toList,
      "/o/u_structured.json.gz".toList, "/o/z_structured.json.gz".toList,
      "/o/x_structured.json.gz".toList]) Props.Batch.demoFs
    (Props.Batch.demoFs.write "/o/x_structured.json.gz".toList "on".toList) := by
  refine .again _ _ _ ?_ (.again _ _ _ (.now _ _) (.never _))
  refine .later _ _ _ _ _ _ _ _ rfl ?_ (.later _ _ _ _ _ _ _ _ rfl ?_ (.later _ _ _ _ _ _ _ _ rfl ?_
    (.saving _ _ [] _ _ ⟨rfl, "one".toList, "one".toList, "is bad".toList, "one".toList,
      by decide +kernel, by rfl, by rfl, by rfl⟩)))
  · rfl
  · rfl
  · rfl

/-- A half-written intermediate file of a killed run: the inputs are as they were, and the next run
replaces it. -/
example : (∀ f ∈ ["/d/a".toList, "/d/b".toList], Props.Featurize.tameDisk f =
      (Props.Featurize.tameDisk.write "/o/Tame-a".toList []) f) ∧
    (match Featurize.featurize Props.Featurize.tame { outputDir := "/o".toList, saveIntermediates := true }
        ["/d/a".toList, "/d/b".toList] [((), [])]
        (Props.Featurize.tameDisk.write "/o/Tame-a".toList []) with
      | .ok r => r.files "/o/Tame-a".toList
      | .error _ => none) = some [3] := by
  decide +kernel

end Beep.Props.Rerun
