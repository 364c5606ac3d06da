import Verif.Proof.Batch
import Verif.Spec.Featurize
import Mathlib.Data.List.Forall2
/-
Lemmas for C68.
-/
namespace Beep.Proof.Featurize
open Beep Beep.Featurize Beep.Spec.Featurize
open Beep.Batch (Exc Files)

variable {D C F V B M : Type}

theorem join_inj (dir n m : Str) (hn : n.head? ≠ some '/') (hm : m.head? ≠ some '/')
    (h : Batch.join dir n = Batch.join dir m) : n = m := by
  unfold Batch.join at h
  rw [if_neg hn, if_neg hm] at h
  split at h
  · exact List.append_cancel_left h
  · have := List.append_cancel_left h
    simpa using this

theorem head_name (n b : Str) (hn : '/' ∉ n) : (n ++ '-' :: b).head? ≠ some '/' := by
  cases n with
  | nil => simp
  | cons c n =>
    simp only [List.cons_append, List.head?_cons, ne_eq, Option.some.injEq]
    rintro rfl
    exact hn (List.mem_cons_self ..)

theorem split_dash (n m b c : Str) (hn : '-' ∉ n) (hm : '-' ∉ m) (h : n ++ '-' :: b = m ++ '-' :: c) :
    n = m ∧ b = c := by
  induction n generalizing m with
  | nil =>
    cases m with
    | nil => simpa using h
    | cons y m =>
      simp only [List.nil_append, List.cons_append, List.cons.injEq] at h
      exact absurd (h.1 ▸ List.mem_cons_self ..) hm
  | cons x n ih =>
    cases m with
    | nil =>
      simp only [List.nil_append, List.cons_append, List.cons.injEq] at h
      exact absurd (h.1 ▸ List.mem_cons_self ..) hn
    | cons y m =>
      simp only [List.cons_append, List.cons.injEq] at h
      obtain ⟨h1, h2⟩ := ih m (fun x => hn (List.mem_cons_of_mem _ x)) (fun x => hm (List.mem_cons_of_mem _ x)) h.2
      exact ⟨by rw [h.1, h1], h2⟩

/-- two intermediate files have the same name exactly when class name and file name agree -/
theorem intermediate_iff (env : Env D C F V B M) (hid : Identifiers env) (o : Opts) (file file' : Str) (f f' : F) :
    intermediate env o file f = intermediate env o file' f' ↔
      env.name f = env.name f' ∧ Batch.basename file = Batch.basename file' := by
  constructor
  · intro h
    have := join_inj _ _ _ (head_name _ _ (hid f).2) (head_name _ _ (hid f').2) h
    exact split_dash _ _ _ _ (hid f).1 (hid f').1 this
  · rintro ⟨h1, h2⟩
    unfold intermediate
    rw [h1, h2]

/-- one featurizer: the entry before the traceback is set, with the exception -/
theorem attempt_spec (env : Env D C F V B M) (hp : Preserving env) (o : Opts) (file : Str) (f : F) (h : Dict Str V)
    (d : D) (fs : Files C) :
    ∃ r fs' e, attempt env o file f h d fs = (r, featuresOf env (f, h) d, h, d, fs', e) ∧
      Tells env o file d (f, h) { r with traceback := e } ∧ r.traceback = none ∧
      (∀ q, (o.saveIntermediates = true → q ≠ intermediate env o file f) → fs' q = fs q) ∧
      (Undisturbed env → e ≠ some .interrupt) ∧
      (∀ b, o.saveIntermediates = true → featuresOf env (f, h) d = some b →
        fs' (intermediate env o file f) = some (env.dump f h b).1) := by
  have hpre := hp f h d
  rcases ha : env.apply f h d with ⟨out, h', d'⟩
  rw [ha] at hpre
  cases hpre
  have hfe : featuresOf env (f, h) d = match out with | .built b => some b | _ => none := by
    unfold featuresOf
    simp only [ha]
    cases out <;> rfl
  unfold attempt
  rw [ha]
  cases out with
  | refused e =>
    simp only at hfe
    refine ⟨_, _, _, by rw [hfe], ?_, rfl, fun _ _ => rfl, ?_, ?_⟩
    · constructor <;> simp [hfe, Succeeds, ha]
    · intro hu hc; cases hc
      exact hu.refused f h d (by rw [ha])
    · intro b _ hb; rw [hfe] at hb; cases hb
  | invalid why =>
    simp only at hfe
    refine ⟨_, _, _, by rw [hfe], ?_, rfl, fun _ _ => rfl, (by intro _ hc; cases hc), ?_⟩
    · constructor <;> simp [hfe, Succeeds, ha]
    · intro b _ hb; rw [hfe] at hb; cases hb
  | failed e =>
    simp only at hfe
    refine ⟨_, _, _, by rw [hfe], ?_, rfl, fun _ _ => rfl, ?_, ?_⟩
    · constructor <;> simp [hfe, Succeeds, ha]
    · intro hu hc; cases hc
      exact hu.failed f h d (by rw [ha])
    · intro b _ hb; rw [hfe] at hb; cases hb
  | built b =>
    simp only at hfe
    simp only
    cases hsv : o.saveIntermediates with
    | false =>
      simp only [Bool.false_eq_true, if_false]
      refine ⟨_, _, _, by rw [hfe], ?_, rfl, fun _ _ => rfl, (by intro _ hc; cases hc), ?_⟩
      · constructor <;> simp [hfe, Succeeds, hsv]
      · intro b hc; cases hc
    | true =>
      simp only [if_true]
      rcases hd : env.dump f h b with ⟨c, oe⟩
      cases oe with
      | none =>
        refine ⟨_, _, _, by rw [hfe], ?_, rfl, ?_, (by intro _ hc; cases hc), ?_⟩
        · constructor <;> simp [hfe, Succeeds, hsv, hd]
        · intro q hq
          simp [Files.write, hq trivial]
        · intro b' _ hb
          rw [hfe] at hb; cases hb
          simp [Files.write, hd]
      | some e =>
        refine ⟨_, _, _, by rw [hfe], ?_, rfl, ?_, ?_, ?_⟩
        · constructor <;> simp [hfe, Succeeds, hsv, hd]
        · intro q hq
          simp [Files.write, hq trivial]
        · intro hu hc; cases hc
          exact hu.dump f h b (by rw [hd])
        · intro b' _ hb
          rw [hfe] at hb; cases hb
          simp [Files.write, hd]

/-- all featurizers of one file -/
theorem applyAll_spec (env : Env D C F V B M) (hp : Preserving env) (hu : Undisturbed env) (o : Opts)
    (hh : o.haltOnError = false) (file : Str) (plan : List (F × Dict Str V)) (d : D) (fs : Files C) :
    ∃ rs fs', applyAll env o file plan d fs = .ok (rs, plan.map (fun p => featuresOf env p d), plan.map Prod.snd, fs') ∧
      List.Forall₂ (fun p r => Tells env o file d p r) plan rs ∧
      (∀ q, (o.saveIntermediates = true → ∀ p ∈ plan, q ≠ intermediate env o file p.1) → fs' q = fs q) ∧
      (Identifiers env → (plan.map (fun p => env.name p.1)).Nodup → ∀ p ∈ plan, ∀ b, o.saveIntermediates = true →
        featuresOf env p d = some b → fs' (intermediate env o file p.1) = some (env.dump p.1 p.2 b).1) := by
  induction plan generalizing fs with
  | nil => exact ⟨[], fs, rfl, .nil, fun _ _ => rfl, fun _ _ p hp' => by cases hp'⟩
  | cons p plan ih =>
    obtain ⟨f, h⟩ := p
    obtain ⟨r, fs1, e, h1, h2, h3, h4, h5, h6⟩ := attempt_spec env hp o file f h d fs
    obtain ⟨rs, fs', g1, g2, g3, g4⟩ := ih fs1
    have hne := h5 hu
    have last : ∀ x : SubResult, Tells env o file d (f, h) x →
        applyAll env o file ((f, h) :: plan) d fs = .ok (x :: rs,
          featuresOf env (f, h) d :: plan.map (fun p => featuresOf env p d), h :: plan.map Prod.snd, fs') →
        ∃ rs fs', applyAll env o file ((f, h) :: plan) d fs = .ok (rs, ((f, h) :: plan).map (fun p => featuresOf env p d),
          ((f, h) :: plan).map Prod.snd, fs') ∧
        List.Forall₂ (fun p r => Tells env o file d p r) ((f, h) :: plan) rs ∧
        (∀ q, (o.saveIntermediates = true → ∀ p ∈ (f, h) :: plan, q ≠ intermediate env o file p.1) → fs' q = fs q) ∧
        (Identifiers env → (((f, h) :: plan).map (fun p => env.name p.1)).Nodup → ∀ p ∈ (f, h) :: plan, ∀ b, o.saveIntermediates = true →
          featuresOf env p d = some b → fs' (intermediate env o file p.1) = some (env.dump p.1 p.2 b).1) := by
      intro x hx he
      refine ⟨x :: rs, fs', he, .cons hx g2, ?_, ?_⟩
      · intro q hq
        rw [g3 q (fun hs p hp' => hq hs p (List.mem_cons_of_mem _ hp')), h4 q (fun hs => hq hs _ (List.mem_cons_self ..))]
      · intro hid hnd p hpm b hs hb
        rw [List.map_cons, List.nodup_cons] at hnd
        rcases List.mem_cons.mp hpm with rfl | hpm
        · rw [g3 _ ?_]
          · exact h6 b hs hb
          · intro _ p' hp' hc
            apply hnd.1
            have : env.name f = env.name p'.1 := ((intermediate_iff env hid o file file f p'.1).mp hc).1
            rw [this]
            exact List.mem_map_of_mem hp'
        · exact g4 hid hnd.2 p hpm b hs hb
    cases e with
    | none =>
      refine last r (by rw [← h3] at h2; exact h2) ?_
      rw [applyAll, h1]
      simp only [g1]
    | some e =>
      cases e with
      | interrupt => exact absurd rfl hne
      | other w =>
        refine last { r with traceback := some (.other w) } h2 ?_
        rw [applyAll, h1]
        simp only [hh, Bool.false_eq_true, if_false, g1]

/-- the entry of a file is right -/
def Right (env : Env D C F V B M) (o : Opts) (plan : List (F × Dict Str V)) (fs : Files C) (file : Str) (r : FileResult) :
    Prop :=
  ∀ c d, fs file = some c → env.load file c = .ok d →
    r.md5 = env.md5 c ∧ List.Forall₂ (fun p x => Tells env o file d p x) plan r.featurizers

theorem zip_fst_snd {α β : Type} (l : List (α × β)) : (l.map Prod.fst).zip (l.map Prod.snd) = l := by
  induction l with
  | nil => rfl
  | cons a l ih => simp [ih]

theorem loop_spec (env : Env D C F V B M) (hp : Preserving env) (hu : Undisturbed env) (o : Opts)
    (hh : o.haltOnError = false) (fs0 : Files C) (all : List Str) (plan : List (F × Dict Str V))
    (hap : Apart env o all plan) (files : List Str) (hsub : ∀ f ∈ files, f ∈ all) (ds : List D)
    (hds : List.Forall₂ (Holds env fs0) files ds) (s : State C F V B) (hpl : s.plan = plan)
    (hfs : ∀ f ∈ all, s.files f = fs0 f) (hwf : s.status.WF)
    (hst : ∀ f r, Dict.get? s.status f = some r → Right env o plan fs0 f r) :
    ∃ s', loop env o files s = .ok s' ∧ s'.plan = plan ∧
      s'.features = s.features ++ ds.map (fun d => plan.map (fun p => featuresOf env p d)) ∧
      s'.status.WF ∧ (∀ f, f ∈ s'.status.keys ↔ f ∈ s.status.keys ∨ f ∈ files) ∧
      (∀ f r, Dict.get? s'.status f = some r → Right env o plan fs0 f r) ∧
      (∀ q, (o.saveIntermediates = true → ∀ f ∈ files, ∀ p ∈ plan, q ≠ intermediate env o f p.1) → s'.files q = s.files q) ∧
      (Identifiers env → (plan.map (fun p => env.name p.1)).Nodup → (files.map Batch.basename).Nodup →
        o.saveIntermediates = true → ∀ f ∈ files, ∀ d, Holds env fs0 f d → ∀ p ∈ plan, ∀ b, featuresOf env p d = some b →
        s'.files (intermediate env o f p.1) = some (env.dump p.1 p.2 b).1) := by
  induction hds generalizing s with
  | nil =>
    refine ⟨s, rfl, hpl, by simp, hwf, by simp, hst, fun _ _ => rfl, ?_⟩
    intro _ _ _ _ f hf; cases hf
  | @cons file d files ds hd hrest ih =>
    obtain ⟨c, hc1, hc2⟩ := hd
    have hfile : file ∈ all := hsub file (List.mem_cons_self ..)
    obtain ⟨rs, fs', g1, g2, g3, g4⟩ := applyAll_spec env hp hu o hh file plan d s.files
    have hone : oneFile env o file s = .ok ⟨Dict.set s.status file ⟨env.md5 c, rs⟩,
        s.features ++ [plan.map (fun p => featuresOf env p d)], plan, fs'⟩ := by
      unfold oneFile
      rw [hfs file hfile, hc1]
      simp only [hc2, hpl, g1, zip_fst_snd]
    have hfs' : ∀ f ∈ all, fs' f = fs0 f := by
      intro f hf
      rw [g3 f (fun hs p hpm hc => hap hs file hfile p hpm f hf hc.symm), hfs f hf]
    obtain ⟨s', e1, e2, e3, e4, e5, e6, e7, e8⟩ := ih (fun f hf => hsub f (List.mem_cons_of_mem _ hf))
      ⟨Dict.set s.status file ⟨env.md5 c, rs⟩, s.features ++ [plan.map (fun p => featuresOf env p d)], plan, fs'⟩ rfl hfs'
      (Dict.WF_set hwf _ _) (by
        intro f r hr
        by_cases hf : file = f
        · subst hf
          rw [Dict.get?_set_self] at hr
          cases hr
          intro c' d' h1 h2
          rw [hc1] at h1; cases h1
          rw [hc2] at h2; cases h2
          exact ⟨rfl, g2⟩
        · rw [Dict.get?_set_ne _ _ (fun h => hf h.symm)] at hr
          exact hst f r hr)
    refine ⟨s', ?_, e2, ?_, e4, ?_, e6, ?_, ?_⟩
    · rw [loop, hone]
      exact e1
    · rw [e3]; simp
    · intro f
      rw [e5]
      simp only [Dict.mem_keys_set, List.mem_cons]
      tauto
    · intro q hq
      rw [e7 q (fun hs f hf p hpm => hq hs f (List.mem_cons_of_mem _ hf) p hpm)]
      exact g3 q (fun hs p hpm => hq hs file (List.mem_cons_self ..) p hpm)
    · intro hid hnd hbn hs f hf d' hd' p hpm b hb
      rw [List.map_cons, List.nodup_cons] at hbn
      rcases List.mem_cons.mp hf with rfl | hf
      · obtain ⟨c', h1, h2⟩ := hd'
        rw [hc1] at h1; cases h1
        rw [hc2] at h2; cases h2
        rw [e7 _ ?_]
        · exact g4 hid hnd p hpm b hs hb
        · intro _ f' hf' p' hp' hc
          apply hbn.1
          rw [((intermediate_iff env hid o _ _ _ _).mp hc).2]
          exact List.mem_map_of_mem hf'
      · exact e8 hid hnd hbn.2 hs f hf d' hd' p hpm b hb

theorem bfs_eq (env : Env D C F V B M) (plan : List (F × Dict Str V)) (ds : List D) (s : State C F V B)
    (h1 : s.plan = plan) (h2 : s.features = ds.map (fun d => plan.map (fun p => featuresOf env p d))) :
    bfs s = created env plan ds := by
  have hz : ∀ (l : List (F × Dict Str V)) (d : D),
      (l.zip (l.map (fun p => featuresOf env p d))).filterMap (fun p => p.2.map (fun b => (p.1.1, p.1.2, b))) =
      l.filterMap (fun p => (featuresOf env p d).map (fun b => (p.1, p.2, b))) := by
    intro l d
    induction l with
    | nil => rfl
    | cons a l ih =>
      simp only [List.map_cons, List.zip_cons_cons, List.filterMap_cons, ih]
  unfold bfs created
  rw [h1, h2, List.flatMap_map]
  congr 1
  funext d
  exact hz plan d

end Beep.Proof.Featurize
