import Verif.Proof.Base
import Verif.Proof.Py
import Verif.Spec.Batch
/-
Lemmas about one file, the loop over the files, and output names.
-/
namespace Beep.Proof.Batch
open Beep Batch Spec.Batch

variable {D C : Type}

/-! ### one file -/

/-- what one attempt does -/
structure Attempted (env : Env D C) (vo : Bool) (fs : Files C) (f out : Str)
    (x : OpResult × Files C × Option Exc) : Prop where
  validated : x.1.validated = true ↔ Valid env fs f
  structured : x.1.structured = true ↔ vo = false ∧ ∃ c', Written env fs f out c'
  output : x.1.output = if x.1.structured then some out else none
  noTrace : x.1.traceback = none
  fine : x.2.2 = none ↔ (if vo then Valid env fs f else ∃ c', Written env fs f out c')
  raw : ∀ c, fs f = some c → x.1.rawMd5 = some (env.md5 c)
  processed : ∀ c', x.1.structured = true → Written env fs f out c' → x.1.processedMd5 = some (env.md5 c')
  elsewhere : ∀ q, q ≠ out → x.2.1 q = fs q
  there : ∀ c', vo = false → Written env fs f out c' → x.2.1 out = some c'

theorem valid_of (env : Env D C) (fs : Files C) (f : Str) (c : C) (d : D) (h1 : fs f = some c)
    (h2 : env.load f c = .ok d) (why : Str) (h3 : env.validate d = .ok (true, why)) : Valid env fs f :=
  ⟨c, d, why, h1, h2, h3⟩

theorem written_inv {env : Env D C} {fs : Files C} {f out : Str} {c' : C} (h : Written env fs f out c') :
    Valid env fs f := by
  obtain ⟨c, d, why, d', h1, h2, h3, _⟩ := h
  exact ⟨c, d, why, h1, h2, h3⟩

theorem attempted_bad (env : Env D C) (vo : Bool) (fs : Files C) (f out : Str) (r : OpResult) (e : Exc)
    (hv : ¬ Valid env fs f) (h1 : r.validated = false) (h2 : r.structured = false) (h3 : r.output = none)
    (h4 : r.traceback = none) (h5 : ∀ c, fs f = some c → r.rawMd5 = some (env.md5 c)) :
    Attempted env vo fs f out (r, fs, some e) where
  validated := by simp [h1, hv]
  structured := by
    simp only [h2, Bool.false_eq_true, false_iff]
    rintro ⟨_, c', h⟩; exact hv (written_inv h)
  output := by simp [h2, h3]
  noTrace := h4
  fine := by
    simp only [reduceCtorEq, false_iff]
    split
    · exact hv
    · rintro ⟨c', h⟩; exact hv (written_inv h)
  raw := h5
  processed := by intro c' h; simp [h2] at h
  elsewhere := fun _ _ => rfl
  there := by intro c' _ h; exact absurd (written_inv h) hv

theorem attempt_spec (env : Env D C) (vo : Bool) (fs : Files C) (f out : Str) :
    Attempted env vo fs f out (attempt env vo fs f out) := by
  unfold attempt
  split
  · rename_i hf
    apply attempted_bad <;> first | rfl | skip
    · rintro ⟨c, _, _, h, _⟩; rw [hf] at h; cases h
    · intro c h; rw [hf] at h; cases h
  rename_i c hf
  dsimp only
  split
  · rename_i e hl
    apply attempted_bad <;> first | rfl | skip
    · rintro ⟨c', d, _, h, h2, _⟩
      rw [hf] at h; cases h; rw [hl] at h2; cases h2
    · intro c' h; rw [hf] at h; cases h; rfl
  rename_i d hl
  split
  · rename_i e hv
    apply attempted_bad <;> first | rfl | skip
    · rintro ⟨c', d', _, h, h2, h3⟩
      rw [hf] at h; cases h; rw [hl] at h2; cases h2; rw [hv] at h3; cases h3
    · intro c' h; rw [hf] at h; cases h; rfl
  rename_i ok why hv
  cases ok with
  | false =>
    simp only [Bool.false_eq_true, if_false]
    apply attempted_bad <;> first | rfl | skip
    · rintro ⟨c', d', _, h, h2, h3⟩
      rw [hf] at h; cases h; rw [hl] at h2; cases h2; rw [hv] at h3; cases h3
    · intro c' h; rw [hf] at h; cases h; rfl
  | true =>
    have hvalid : Valid env fs f := ⟨c, d, why, hf, hl, hv⟩
    simp only [if_true]
    cases vo with
    | true =>
      simp only [if_true]
      exact { validated := by simp [hvalid], structured := by simp, output := by simp, noTrace := rfl,
              fine := by simp [hvalid],
              raw := by intro c' h; rw [hf] at h; cases h; rfl,
              processed := by intro c' h; simp at h,
              elsewhere := fun _ _ => rfl, there := by intro c' h; cases h }
    | false =>
      simp only [Bool.false_eq_true, if_false]
      unfold finish
      split
      · rename_i e hs
        have hw : ∀ c', ¬ Written env fs f out c' := by
          rintro c' ⟨c2, d2, _, d', h, h2, _, h4, _⟩
          rw [hf] at h; cases h; rw [hl] at h2; cases h2; rw [hs] at h4; cases h4
        exact { validated := by simp [hvalid], structured := by simp [hw], output := by simp, noTrace := rfl,
                fine := by simp [hw],
                raw := by intro c' h; rw [hf] at h; cases h; rfl,
                processed := by intro c' h; simp at h,
                elsewhere := fun _ _ => rfl, there := by intro c' _ h; exact absurd h (hw c') }
      rename_i d' hs
      split
      · rename_i c1 e hsv
        have hw : ∀ c', ¬ Written env fs f out c' := by
          rintro c' ⟨c2, d2, _, d3, h, h2, _, h4, h5⟩
          rw [hf] at h; cases h; rw [hl] at h2; cases h2; rw [hs] at h4; cases h4
          rw [hsv] at h5; cases h5
        exact { validated := by simp [hvalid], structured := by simp [hw], output := by simp, noTrace := rfl,
                fine := by simp [hw],
                raw := by intro c' h; rw [hf] at h; cases h; rfl,
                processed := by intro c' h; simp at h,
                elsewhere := fun q hq => by simp [Files.write, hq],
                there := by intro c' _ h; exact absurd h (hw c') }
      · rename_i c1 hsv
        have hw : Written env fs f out c1 := ⟨c, d, why, d', hf, hl, hv, hs, hsv⟩
        have hu : ∀ c', Written env fs f out c' → c' = c1 := by
          rintro c' ⟨c2, d2, _, d3, h, h2, _, h4, h5⟩
          rw [hf] at h; cases h; rw [hl] at h2; cases h2; rw [hs] at h4; cases h4
          rw [hsv] at h5; cases h5; rfl
        exact { validated := by simp [hvalid], structured := by simp; exact ⟨c1, hw⟩, output := by simp,
                noTrace := rfl, fine := by simp; exact ⟨c1, hw⟩,
                raw := by intro c' h; rw [hf] at h; cases h; rfl,
                processed := by intro c' _ h; rw [hu c' h],
                elsewhere := fun q hq => by simp [Files.write, hq],
                there := by intro c' _ h; rw [hu c' h]; simp [Files.write] }

theorem attempt_undisturbed (env : Env D C) (hu : Undisturbed env) (vo : Bool) (fs : Files C) (f out : Str) :
    (attempt env vo fs f out).2.2 ≠ some .interrupt := by
  unfold attempt
  split
  · simp
  dsimp only
  split
  · rename_i e h; intro h'; cases h'; exact hu.load _ _ h
  split
  · rename_i e h; intro h'; cases h'; exact hu.validate _ h
  split
  · split
    · simp
    · unfold finish
      split
      · rename_i e h; intro h'; cases h'; exact hu.structured _ h
      split
      · rename_i c e h; intro h'; cases h'
        exact hu.save out _ (by rw [h])
      · simp
  · simp

theorem valid_congr (env : Env D C) (fs fs' : Files C) (f : Str) (h : fs f = fs' f) :
    Valid env fs f ↔ Valid env fs' f := by
  unfold Valid; rw [h]

theorem written_congr (env : Env D C) (fs fs' : Files C) (f out : Str) (c' : C) (h : fs f = fs' f) :
    Written env fs f out c' ↔ Written env fs' f out c' := by
  unfold Written; rw [h]

/-- the entry recorded for an attempt -/
def entry (x : OpResult × Files C × Option Exc) : OpResult :=
  match x.2.2 with
  | none => x.1
  | some e => { x.1 with traceback := some e }

theorem entry_tells (env : Env D C) (o : Opts) (fs fs0 : Files C) (f out : Str) (h0 : fs f = fs0 f) :
    Tells env o fs0 f out (entry (attempt env o.validationOnly fs f out)) := by
  have h := attempt_spec env o.validationOnly fs f out
  have hs : (if o.validationOnly then Valid env fs f else ∃ c', Written env fs f out c') ↔
      Succeeds env o fs0 f out := by
    unfold Succeeds
    split
    · exact valid_congr env fs fs0 f h0
    · exact exists_congr (fun c' => written_congr env fs fs0 f out c' h0)
  generalize hx : attempt env o.validationOnly fs f out = x at h
  have hv := h.validated.trans (valid_congr env fs fs0 f h0)
  have hst := h.structured.trans (and_congr_right' (exists_congr
    (fun c' => written_congr env fs fs0 f out c' h0)))
  have hf := h.fine.trans hs
  unfold entry
  split
  · rename_i hn
    exact { validated := hv, structured := hst, output := h.output
            traceback := by rw [h.noTrace]; simp [hf.mp hn]
            raw := fun c hc => h.raw c (h0.trans hc)
            processed := fun c' h1 h2 => h.processed c' h1 ((written_congr env fs fs0 f out c' h0).mpr h2) }
  · rename_i e hn
    exact { validated := hv, structured := hst, output := h.output
            traceback := by
              simp only [reduceCtorEq, false_iff]
              intro hc; rw [hf.mpr hc] at hn; cases hn
            raw := fun c hc => h.raw c (h0.trans hc)
            processed := fun c' h1 h2 => h.processed c' h1 ((written_congr env fs fs0 f out c' h0).mpr h2) }

/-! ### the loop -/

theorem loop_cons_go (env : Env D C) (o : Opts) (hh : o.haltOnError = false) (f out : Str)
    (jobs : List (Str × Str)) (st : Dict Str OpResult) (fs : Files C)
    (hu : (attempt env o.validationOnly fs f out).2.2 ≠ some .interrupt) :
    loop env o ((f, out) :: jobs) st fs =
      ((loop env o jobs (Dict.set st f (entry (attempt env o.validationOnly fs f out)))
          (attempt env o.validationOnly fs f out).2.1).1,
       f :: (loop env o jobs (Dict.set st f (entry (attempt env o.validationOnly fs f out)))
          (attempt env o.validationOnly fs f out).2.1).2) := by
  simp only [loop, entry]
  rcases h : attempt env o.validationOnly fs f out with ⟨r, fs', e⟩
  rw [h] at hu
  cases e with
  | none => rfl
  | some e =>
    cases e with
    | interrupt => exact absurd rfl hu
    | other w => simp only [hh, Bool.false_eq_true, if_false]

/-- without Ctrl-C and without halting, the loop reaches the end -/
theorem loop_done (env : Env D C) (hu : Undisturbed env) (o : Opts) (hh : o.haltOnError = false)
    (fs0 : Files C) (jobs : List (Str × Str)) (st : Dict Str OpResult) (fs : Files C)
    (hap : ∀ p ∈ jobs, ∀ q ∈ jobs, p.2 ≠ q.1) (hcon : Consistent jobs)
    (hsame : ∀ p ∈ jobs, fs p.1 = fs0 p.1) (hwf : st.WF) :
    ∃ st' fs', loop env o jobs st fs = (.done st' fs', jobs.map Prod.fst) ∧ st'.WF ∧
      (∀ f, f ∈ st'.keys ↔ f ∈ st.keys ∨ f ∈ jobs.map Prod.fst) ∧
      (∀ f, f ∉ jobs.map Prod.fst → Dict.get? st' f = Dict.get? st f) ∧
      (∀ p ∈ jobs, ∃ r, Dict.get? st' p.1 = some r ∧ Tells env o fs0 p.1 p.2 r) ∧
      (∀ q, q ∉ jobs.map Prod.snd → fs' q = fs q) ∧
      ((∀ p ∈ jobs, ∀ q ∈ jobs, p.2 = q.2 → p.1 = q.1) → o.validationOnly = false →
        ∀ p ∈ jobs, ∀ c', Written env fs0 p.1 p.2 c' → fs' p.2 = some c') := by
  induction jobs generalizing st fs with
  | nil =>
    refine ⟨st, fs, rfl, hwf, by simp, by simp, by simp, by simp, by simp⟩
  | cons p jobs ih =>
    obtain ⟨f, out⟩ := p
    have hni := attempt_undisturbed env hu o.validationOnly fs f out
    rw [loop_cons_go env o hh f out jobs st fs hni]
    have ha := attempt_spec env o.validationOnly fs f out
    have ht := entry_tells env o fs fs0 f out (hsame (f, out) (by simp))
    generalize attempt env o.validationOnly fs f out = x at ha ht
    obtain ⟨st', fs', h1, h2, h3, h4, h5, h6, h7⟩ := ih (Dict.set st f (entry x)) x.2.1
      (fun p hp q hq => hap p (by simp [hp]) q (by simp [hq]))
      (fun p hp q hq => hcon p (by simp [hp]) q (by simp [hq]))
      (fun p hp => by
        rw [ha.elsewhere p.1 (fun he => hap (f, out) (by simp) p (by simp [hp]) he.symm)]
        exact hsame p (by simp [hp]))
      (Dict.WF_set hwf f _)
    refine ⟨st', fs', by rw [h1]; rfl, h2, ?_, ?_, ?_, ?_, ?_⟩
    · intro g
      rw [h3, Dict.mem_keys_set]
      simp only [List.map_cons, List.mem_cons]
      tauto
    · intro g hg
      simp only [List.map_cons, List.mem_cons, not_or] at hg
      rw [h4 g hg.2, Dict.get?_set_ne _ _ hg.1]
    · intro p hp
      rcases List.mem_cons.mp hp with rfl | hp
      · by_cases hin : f ∈ jobs.map Prod.fst
        · obtain ⟨q, hq, hqf⟩ := List.mem_map.mp hin
          obtain ⟨r, hr, htr⟩ := h5 q hq
          have := hcon (f, out) (by simp) q (by simp [hq]) hqf.symm
          simp only at this
          refine ⟨r, by show Dict.get? st' f = some r; rw [← hqf]; exact hr, ?_⟩
          show Tells env o fs0 f out r
          rw [this, ← hqf]; exact htr
        · exact ⟨entry x, by rw [h4 f hin, Dict.get?_set_self], ht⟩
      · exact h5 p hp
    · intro q hq
      simp only [List.map_cons, List.mem_cons, not_or] at hq
      rw [h6 q hq.2, ha.elsewhere q hq.1]
    · intro hinj hvo p hp c' hw
      have h7' := h7 (fun p hp q hq => hinj p (by simp [hp]) q (by simp [hq])) hvo
      rcases List.mem_cons.mp hp with rfl | hp
      · by_cases hin : out ∈ jobs.map Prod.snd
        · obtain ⟨q, hq, hqo⟩ := List.mem_map.mp hin
          have hqf := hinj q (by simp [hq]) (f, out) (by simp) hqo
          have := h7' q hq c' (by simp only at hqf; rw [hqf, hqo]; exact hw)
          rw [hqo] at this; exact this
        · show fs' out = some c'
          rw [h6 out hin]
          exact ha.there c' hvo ((written_congr env fs fs0 f out c' (hsame (f, out) (by simp))).mpr hw)
      · exact h7' p hp c' hw

/-- with halting, the loop stops at the first file that does not succeed -/
theorem loop_halts (env : Env D C) (hu : Undisturbed env) (o : Opts) (hh : o.haltOnError = true)
    (fs0 : Files C) (jobs : List (Str × Str)) (st : Dict Str OpResult) (fs : Files C)
    (hap : ∀ p ∈ jobs, ∀ q ∈ jobs, p.2 ≠ q.1)
    (hsame : ∀ p ∈ jobs, fs p.1 = fs0 p.1) (k : Nat) (p : Str × Str) (hk : jobs[k]? = some p)
    (hbad : ¬ Succeeds env o fs0 p.1 p.2) (hgood : ∀ q ∈ jobs.take k, Succeeds env o fs0 q.1 q.2) :
    ∃ e fs', loop env o jobs st fs = (.raised e fs', (jobs.take (k + 1)).map Prod.fst) ∧
      (∀ q, q ∉ (jobs.take (k + 1)).map Prod.snd → fs' q = fs q) := by
  induction jobs generalizing st fs k with
  | nil => simp at hk
  | cons j jobs ih =>
    obtain ⟨f, out⟩ := j
    have ha := attempt_spec env o.validationOnly fs f out
    have hni := attempt_undisturbed env hu o.validationOnly fs f out
    have hf : (attempt env o.validationOnly fs f out).2.2 = none ↔ Succeeds env o fs0 f out := by
      rw [ha.fine]
      unfold Succeeds
      have h0 := hsame (f, out) (by simp)
      split
      · exact valid_congr env fs fs0 f h0
      · exact exists_congr (fun c' => written_congr env fs fs0 f out c' h0)
    simp only [loop]
    rcases hx : attempt env o.validationOnly fs f out with ⟨r, fs', e⟩
    rw [hx] at ha hni hf
    cases k with
    | zero =>
      simp only [List.getElem?_cons_zero, Option.some.injEq] at hk
      subst hk
      cases e with
      | none => exact absurd (hf.mp rfl) hbad
      | some e =>
        cases e with
        | interrupt => exact absurd rfl hni
        | other w =>
          simp only [hh, if_true]
          refine ⟨_, fs', rfl, ?_⟩
          intro q hq
          exact ha.elsewhere q (by simpa using hq)
    | succ k =>
      have hnone : e = none := hf.mpr (hgood (f, out) (by simp))
      subst hnone
      obtain ⟨e', fs'', h1, h2⟩ := ih (Dict.set st f r) fs'
        (fun p hp q hq => hap p (by simp [hp]) q (by simp [hq]))
        (fun p hp => by
          refine (ha.elsewhere p.1 (fun he => hap (f, out) (by simp) p (by simp [hp]) he.symm)).trans ?_
          exact hsame p (by simp [hp])) k (by simpa using hk)
        (fun q hq => hgood q (by simp [hq]))
      refine ⟨e', fs'', by simp [h1], ?_⟩
      intro q hq
      simp only [List.take_succ_cons, List.map_cons, List.mem_cons, not_or] at hq
      rw [h2 q hq.2]
      exact ha.elsewhere q hq.1

/-! ### the report -/

theorem report_mem (st : Dict Str OpResult) (f : Str) :
    (f ∈ (report st).succeeded ↔ ∃ r, (f, r) ∈ st ∧ r.validated = true ∧ r.structured = true) ∧
    (f ∈ (report st).failed ↔ ∃ r, (f, r) ∈ st ∧ r.validated = true ∧ r.structured = false) ∧
    (f ∈ (report st).invalid ↔ ∃ r, (f, r) ∈ st ∧ r.validated = false) := by
  induction st with
  | nil => simp [report]
  | cons p st ih =>
    obtain ⟨g, r⟩ := p
    simp only [report]
    cases h1 : r.validated <;> cases h2 : r.structured <;>
      simp [ih, h1, h2, or_and_right, exists_or]

theorem report_perm (st : Dict Str OpResult) :
    ((report st).succeeded ++ (report st).failed ++ (report st).invalid).Perm st.keys := by
  induction st with
  | nil => simp [report, Dict.keys]
  | cons p st ih =>
    obtain ⟨g, r⟩ := p
    simp only [report]
    have hk : Dict.keys ((g, r) :: st) = g :: Dict.keys st := rfl
    rw [hk]
    cases h1 : r.validated <;> cases h2 : r.structured <;>
      simp only [Bool.and_true, Bool.and_false, Bool.not_true, Bool.not_false, Bool.false_eq_true,
        if_true, if_false, List.cons_append]
    · exact List.perm_middle.trans (List.Perm.cons _ ih)
    · exact List.perm_middle.trans (List.Perm.cons _ ih)
    · refine (List.Perm.append_right _ List.perm_middle).trans (List.Perm.cons _ ?_)
      exact ih
    · exact List.Perm.cons _ ih

/-! ### names -/

theorem lastDot_some (s a b : Str) (h : lastDot s = some (a, b)) :
    s = a ++ b ∧ ∃ x, b = '.' :: x ∧ '.' ∉ x := by
  induction s generalizing a b with
  | nil => simp [lastDot] at h
  | cons c s ih =>
    simp only [lastDot] at h
    split at h
    · rename_i a' b' h'
      injection h with h; injection h with h1 h2; subst h1 h2
      obtain ⟨e, x, hx⟩ := ih a' b' h'
      exact ⟨by rw [e]; rfl, x, hx⟩
    · rename_i h'
      split at h
      · rename_i hc
        injection h with h; injection h with h1 h2; subst h1 h2
        refine ⟨rfl, s, by rw [hc], ?_⟩
        clear ih hc
        induction s with
        | nil => simp
        | cons d s ih2 =>
          simp only [lastDot] at h'
          split at h'
          · cases h'
          · rename_i h2
            split at h'
            · cases h'
            · rename_i hd
              simp only [List.mem_cons, not_or]
              exact ⟨fun e => hd e.symm, ih2 h2⟩
      · cases h

theorem lastDot_none (s : Str) : lastDot s = none ↔ '.' ∉ s := by
  induction s with
  | nil => simp [lastDot]
  | cons d s ih =>
    simp only [lastDot]
    cases h : lastDot s with
    | some p =>
      simp only [reduceCtorEq, false_iff, not_not]
      have : '.' ∈ s := by
        by_contra hc
        rw [ih.mpr hc] at h; cases h
      simp [this]
    | none =>
      have hs := ih.mp h
      simp only [List.mem_cons, not_or]
      split
      · rename_i hd; simp [hd]
      · rename_i hd; simp only [true_iff]; exact ⟨fun e => hd e.symm, hs⟩

theorem lastDot_append (a x : Str) (hx : '.' ∉ x) : lastDot (a ++ '.' :: x) = some (a, '.' :: x) := by
  induction a with
  | nil => simp [lastDot, (lastDot_none x).mpr hx]
  | cons c a ih => simp [lastDot, ih]

theorem basename_append (d n : Str) (hd : d = [] ∨ ∃ d', d = d' ++ ['/']) (hn : '/' ∉ n) :
    basename (d ++ n) = n := by
  have h0 : ∀ n : Str, '/' ∉ n → basename n = n := by
    intro n hn
    cases n with
    | nil => rfl
    | cons c n =>
      simp only [List.mem_cons, not_or] at hn
      simp [basename, hn.2, Ne.symm hn.1]
  rcases hd with rfl | ⟨d', rfl⟩
  · exact h0 n hn
  · induction d' with
    | nil => simp [basename, hn]
    | cons c d' ih =>
      have : '/' ∈ d' ++ ['/'] ++ n := by simp
      show basename (c :: (d' ++ ['/'] ++ n)) = n
      rw [basename, if_pos this]; exact ih

theorem basename_split (p : Str) : ∃ d, p = d ++ basename p ∧ (d = [] ∨ ∃ d', d = d' ++ ['/']) ∧
    '/' ∉ basename p := by
  induction p with
  | nil => exact ⟨[], rfl, Or.inl rfl, by simp [basename]⟩
  | cons c p ih =>
    simp only [basename]
    split
    · rename_i h
      obtain ⟨d, h1, h2, h3⟩ := ih
      refine ⟨c :: d, by rw [List.cons_append, ← h1], ?_, h3⟩
      rcases h2 with rfl | ⟨d', rfl⟩
      · rw [List.nil_append] at h1; rw [← h1] at h3; exact absurd h h3
      · exact Or.inr ⟨c :: d', rfl⟩
    · rename_i h
      split
      · rename_i hc
        exact ⟨[c], rfl, Or.inr ⟨[], by rw [hc]; rfl⟩, h⟩
      · rename_i hc
        refine ⟨[], rfl, Or.inl rfl, ?_⟩
        simp only [List.mem_cons, not_or]; exact ⟨fun e => hc e.symm, h⟩

/-- the stem is determined by the path -/
theorem stem_iff (p s : Str) : IsStem p s ↔ (splitext (basename p)).1 = s := by
  constructor
  · rintro ⟨d, e, rfl, hd, hs, h⟩
    rw [List.append_assoc, basename_append d (s ++ e) hd hs]
    unfold splitext
    rcases h with ⟨rfl, hn⟩ | ⟨x, rfl, hx, c, hc, hcd⟩
    · rw [List.append_nil]
      split
      · rename_i a b h
        obtain ⟨e1, x, rfl, hx⟩ := lastDot_some s a b h
        split
        · rename_i hany
          rw [List.any_eq_true] at hany
          obtain ⟨c, hc, hcd⟩ := hany
          exact absurd ⟨a, x, e1, c, hc, by simpa using hcd⟩ hn
        · rfl
      · rfl
    · rw [lastDot_append s x hx]
      have : s.any (· ≠ '.') = true := by
        rw [List.any_eq_true]; exact ⟨c, hc, by simpa using hcd⟩
      simp only [this, if_true]
  · rintro rfl
    obtain ⟨d, h1, h2, h3⟩ := basename_split p
    generalize basename p = n at h1 h3
    unfold splitext
    split
    · rename_i a b h
      obtain ⟨e1, x, hb, hx⟩ := lastDot_some n a b h
      subst hb
      split
      · rename_i hany
        rw [List.any_eq_true] at hany
        obtain ⟨c, hc, hcd⟩ := hany
        refine ⟨d, '.' :: x, by rw [List.append_assoc, ← e1]; exact h1, h2, by rw [← e1]; exact h3,
          Or.inr ⟨x, rfl, hx, c, hc, by simpa using hcd⟩⟩
      · rename_i hany
        refine ⟨d, [], by simpa using h1, h2, by simpa using h3, Or.inl ⟨rfl, ?_⟩⟩
        rintro ⟨a', b', e2, c, hc, hcd⟩
        simp only at e2
        apply hany
        rw [List.any_eq_true]
        have : a' <+: a := by
          by_cases hlt : a.length < a'.length
          · exfalso
            have h' : (a ++ ['.']) <+: a' := by
              apply List.prefix_of_prefix_length_le (l₃ := n)
              · exact ⟨x, by simp [e1]⟩
              · exact ⟨'.' :: b', e2.symm⟩
              · simp only [List.length_append, List.length_cons, List.length_nil]; omega
            obtain ⟨w, hw⟩ := h'
            have hx' : x = w ++ '.' :: b' := by
              have : a ++ '.' :: x = a ++ '.' :: (w ++ '.' :: b') := by
                rw [← e1, e2, ← hw]; simp
              simpa using this
            apply hx; rw [hx']; simp
          · exact List.prefix_of_prefix_length_le ⟨'.' :: b', e2.symm⟩ ⟨'.' :: x, e1.symm⟩ (by omega)
        exact ⟨c, this.subset hc, by simpa using hcd⟩
    · rename_i h
      refine ⟨d, [], by simpa using h1, h2, by simpa using h3, Or.inl ⟨rfl, ?_⟩⟩
      rintro ⟨a, b, e, _⟩
      simp only at e
      exact (lastDot_none n).mp h (by rw [e]; simp)

theorem join_inj (dir a b : Str) (ha : a.head? ≠ some '/') (hb : b.head? ≠ some '/')
    (h : join dir a = join dir b) : a = b := by
  unfold join at h
  rw [if_neg ha, if_neg hb] at h
  split at h
  · exact List.append_cancel_left h
  · have := List.append_cancel_left h
    injection this

theorem stem_no_slash (p s : Str) (h : IsStem p s) : '/' ∉ s := by
  obtain ⟨d, e, _, _, h3, _⟩ := h
  exact fun hc => h3 (List.mem_append_left _ hc)

/-- two automatically chosen names are equal exactly when the stems are -/
theorem addSuffix_eq_iff (p q dir suf ext : Str) (hs : suf.head? ≠ some '/') (hne : suf ≠ []) (he : ext ≠ []) :
    addSuffix p dir suf ext = addSuffix q dir suf ext ↔
      (splitext (basename p)).1 = (splitext (basename q)).1 := by
  have hhead : ∀ s : Str, '/' ∉ s → (s ++ suf ++ ext).head? ≠ some '/' := by
    intro s hns
    cases s with
    | nil =>
      cases suf with
      | nil => exact absurd rfl hne
      | cons c suf => simpa using hs
    | cons c s =>
      simp only [List.cons_append, List.head?_cons, ne_eq, Option.some.injEq]
      rintro rfl; simp at hns
  unfold addSuffix
  simp only [he, if_false]
  constructor
  · intro h
    have := join_inj _ _ _ (hhead _ (stem_no_slash p _ ((stem_iff p _).mpr rfl)))
      (hhead _ (stem_no_slash q _ ((stem_iff q _).mpr rfl))) h
    exact List.append_cancel_right (List.append_cancel_right this)
  · intro h; rw [h]

end Beep.Proof.Batch
