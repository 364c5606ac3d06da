import Verif.Proof.CycleCount
/-
Lemmas for C23: the numbering along a run.
-/
namespace Beep.Proof.CycleCount
open Beep Beep.MtB Beep.CycleRules Beep.Spec.MtB Beep.Spec.CycleCount Beep.Props.MtbSeqs

/-- the advance between two records of one lap -/
def jump (r : Rules) (q f : Int) : Int := if f ≠ q then r.seqAdvance q f else 0

theorem numberRows_cons_same (r : Rules) (l q n f : Int) (rest : List (Int × Int)) :
    numberRows r l q n ((f, l) :: rest) =
      ((n + jump r q f) :: (numberRows r l f (n + jump r q f) rest).1, (numberRows r l f (n + jump r q f) rest).2) := by
  have : (if l ≠ l then n + r.onTechLoop else if f ≠ q then n + r.seqAdvance q f else n) = n + jump r q f := by
    unfold jump
    rw [if_neg (by simp)]
    split <;> simp
  rw [numberRows]
  simp only [this]

theorem numberRows_replicate (r : Rules) (l f n : Int) (k : Nat) (rest : List (Int × Int)) :
    numberRows r l f n (List.replicate k (f, l) ++ rest) =
      (List.replicate k n ++ (numberRows r l f n rest).1, (numberRows r l f n rest).2) := by
  induction k with
  | zero => rfl
  | succ k ih =>
    have : n + jump r f f = n := by unfold jump; simp
    rw [List.replicate_succ, List.cons_append, numberRows_cons_same, this, ih]
    rfl

/-- the records of one measurement step -/
theorem numberRows_emits (r : Rules) (steps : List Step) (pc : Nat) (s : Step) (hs : steps[pc]? = some s)
    (hm : IsMeasure s) (l q n c : Int) (now : List (Int × Int)) (he : Emits steps pc s c now)
    (hj : n + jump r q (firstSeq steps pc) = c)
    (hin : s.limits ≠ none → r.seqAdvance (firstSeq steps pc) ((firstSeq steps pc : Int) + 1) = 0)
    (rest : List (Int × Int)) :
    numberRows r l q n (now.map (fun p => (p.1, l)) ++ rest) =
      (now.map Prod.snd ++ (numberRows r l (lastSeqOf steps pc) c rest).1,
       (numberRows r l (lastSeqOf steps pc) c rest).2) := by
  have hf := firstSeq_succ steps pc s hs
  rw [seqCount_measure hm] at hf
  rcases he with ⟨h1, k, rfl⟩ | ⟨h1, k, k', rfl⟩
  · rw [if_pos h1] at hf
    have hl : lastSeqOf steps pc = (firstSeq steps pc : Int) := by unfold lastSeqOf; omega
    rw [hl, List.map_replicate, List.map_replicate, List.replicate_succ, List.cons_append, numberRows_cons_same, hj,
      numberRows_replicate]
    rfl
  · rw [if_neg h1] at hf
    have hl : lastSeqOf steps pc = (firstSeq steps pc : Int) + 1 := by unfold lastSeqOf; omega
    have hz : c + jump r (firstSeq steps pc) ((firstSeq steps pc : Int) + 1) = c := by
      unfold jump
      rw [hin h1]
      simp
    rw [hl, List.map_append, List.map_append, List.map_replicate, List.map_replicate, List.map_replicate,
      List.map_replicate, List.append_assoc, List.replicate_succ, List.cons_append, numberRows_cons_same, hj,
      numberRows_replicate, List.replicate_succ (n := k'), List.cons_append, numberRows_cons_same, hz,
      numberRows_replicate]
    simp [List.replicate_succ]

/-- a change of lap counts as the technique's loop advance -/
theorem numberRows_lap (r : Rules) (pl ps n l f cnt : Int) (hl : l ≠ pl) (hn : n + r.onTechLoop = cnt)
    (rest : List (Int × Int)) :
    numberRows r pl ps n ((f, l) :: rest) = numberRows r l f cnt ((f, l) :: rest) := by
  have : cnt + jump r f f = cnt := by unfold jump; simp
  rw [numberRows_cons_same, this, numberRows]
  simp only [if_pos hl, hn]

theorem numberRows_append (r : Rules) (l : Int) (a : List (Int × Int)) (ha : a ≠ []) (hl : ∀ p ∈ a, p.2 = l) (pl ps n : Int)
    (b : List (Int × Int)) : ∃ q, numberRows r pl ps n (a ++ b) =
      ((numberRows r pl ps n a).1 ++ (numberRows r l q (numberRows r pl ps n a).2 b).1,
       (numberRows r l q (numberRows r pl ps n a).2 b).2) := by
  induction a generalizing pl ps n with
  | nil => exact absurd rfl ha
  | cons p a ih =>
    obtain ⟨f, l'⟩ := p
    have : l' = l := hl (f, l') (List.mem_cons_self ..)
    subst this
    rw [List.cons_append, numberRows, numberRows]
    simp only
    cases a with
    | nil => exact ⟨f, rfl⟩
    | cons p' a =>
      obtain ⟨q, hq⟩ := ih (by simp) (fun p hp => hl p (List.mem_cons_of_mem _ hp)) l' f
        (if l' ≠ pl then n + r.onTechLoop else if f ≠ ps then n + r.seqAdvance ps f else n)
      refine ⟨q, ?_⟩
      rw [hq]
      rfl

section
variable {steps : List Step} {off : Nat} {oT cT bo bc : String} {carry : Int} {S : Nat → RState}

/-- inside a split step the rules list no transition -/
theorem Trace.inner (tr : Trace steps off oT cT bo bc carry S) {all : List Numbered}
    (hall : numberSteps ((off : Int) + 1) 0 steps = .ok all) {D : Dict (Int × Int) Int}
    (hD : toSeqTransitions (seqNumsByStep all) (S steps.length).trans [] = .ok D) {pc : Nat} {s : Step}
    (hs : steps[pc]? = some s) (hm : IsMeasure s) (hl : s.limits ≠ none) :
    D.get? ((firstSeq steps pc : Int), (firstSeq steps pc : Int) + 1) = none := by
  apply (tr.seq_get hall hD _).2
  intro i a b hslot himg
  obtain ⟨j, t, hj, hp, hi, hc⟩ := tr.slot_img hall hslot
  rw [hi] at himg
  simp only [Option.some.injEq, Prod.mk.injEq] at himg
  obtain ⟨sj, hsj, hmj⟩ := hj.2.1
  have h1 := himg.1
  unfold lastSeqOf at h1
  have h2 := firstSeq_succ steps pc s hs
  rw [seqCount_measure hm, if_neg hl] at h2
  have h3 := firstSeq_succ steps j sj hsj
  have h4 := seqCount_pos hmj
  rcases Nat.lt_trichotomy j pc with h | h | h
  · have := firstSeq_mono steps (j + 1) pc h
    omega
  · subst h
    omega
  · have := firstSeq_mono steps (pc + 1) j h
    omega

/-- what is known when the run reaches position `pc` after a record of sequence `q`, with `p`
advances since then -/
def Pending (steps : List Step) (off : Nat) (S : Nat → RState) (r : Rules) (pc : Nat) (q p : Int) : Prop :=
  (∃ j : Nat, (S pc).prevMeas = some ((j : Int) + off + 1) ∧ LastMeasure steps pc j ∧ q = lastSeqOf steps j ∧
    p = (S pc).adv) ∨
  (∃ s, steps[pc]? = some s ∧ IsDo s ∧ p = jump r q (firstSeq steps pc)) ∨
  (∃ s, steps[pc]? = some s ∧ IsMeasure s ∧ p = jump r q (firstSeq steps pc))

/-- steps without sequences -/
theorem firstSeq_flat {i k : Nat} (hik : i ≤ k)
    (h : ∀ (x : Nat) s, i ≤ x → x < k → steps[x]? = some s → seqCount s = 0) (hk : k ≤ steps.length) :
    firstSeq steps k = firstSeq steps i := by
  induction k with
  | zero =>
    have : i = 0 := by omega
    subst this; rfl
  | succ k ih =>
    by_cases hc : i = k + 1
    · subst hc; rfl
    · have hs : steps[k]? = some steps[k] := List.getElem?_eq_getElem (by omega)
      rw [firstSeq_succ steps k _ hs, h k _ (by omega) (by omega) hs,
        ih (by omega) (fun x s h1 h2 => h x s h1 (by omega)) (by omega)]
      rfl

theorem Trace.walk (tr : Trace steps off oT cT bo bc carry S) {all : List Numbered}
    (hall : numberSteps ((off : Int) + 1) 0 steps = .ok all) {r : Rules}
    (hD : toSeqTransitions (seqNumsByStep all) (S steps.length).trans [] = .ok r.seqTransitions)
    (two : ∀ (o k : Nat) s l, OpenAt steps o (k + 1) → steps[k]? = some s → IsAdv s →
      steps[k + 1]? = some l → IsLoop l → firstSeq steps o + 2 ≤ firstSeq steps (k + 1))
    {pc : Nat} {c c' : Int} {rs : List (Int × Int)} (h : Walk steps pc c rs c') (l q n p : Int)
    (hp : Pending steps off S r pc q p) (hc : c = n + p) :
    (numberRows r l q n (rs.map (fun x => (x.1, l)))).1 = rs.map Prod.snd ∧
    c' = (numberRows r l q n (rs.map (fun x => (x.1, l)))).2 + (S steps.length).adv := by
  have lt_of : ∀ {k : Nat} {s : Step}, steps[k]? = some s → k < steps.length :=
    fun h => (List.getElem?_eq_some_iff.mp h).1
  induction h generalizing q n p with
  | done c =>
    rcases hp with ⟨j, _, _, _, rfl⟩ | ⟨s, hs, _⟩ | ⟨s, hs, _⟩
    · exact ⟨rfl, hc⟩
    · rw [List.getElem?_eq_none (le_refl _)] at hs; cases hs
    · rw [List.getElem?_eq_none (le_refl _)] at hs; cases hs
  | adv pc s c rs c' hs hk h ih =>
    rcases hp with ⟨j, h1, h2, h3, rfl⟩ | ⟨s', hs', hd, _⟩ | ⟨s', hs', hm, _⟩
    · refine ih q n ((S pc).adv + 1) (Or.inl ⟨j, ?_, lastMeasure_succ h2 hs (fun h => measure_not_adv h hk), h3, ?_⟩)
        (by omega)
      · rw [tr.adv hs hk]; exact h1
      · rw [tr.adv hs hk]
    · rw [hs] at hs'; cases hs'; exact (adv_not_do hk hd).elim
    · rw [hs] at hs'; cases hs'; exact (measure_not_adv hm hk).elim
  | enter pc s c rs c' hs hk h ih =>
    have hfs : firstSeq steps (pc + 1) = firstSeq steps pc := by
      rw [firstSeq_succ steps pc s hs, seqCount_do hk]; rfl
    rcases hp with ⟨j, h1, h2, h3, rfl⟩ | ⟨s', hs', hd, h3⟩ | ⟨s', hs', hm, _⟩
    · refine ih q n (S pc).adv (Or.inl ⟨j, ?_, lastMeasure_succ h2 hs (fun h => measure_not_do h hk), h3, ?_⟩) hc
      · rw [(tr.enter hs hk).2]; exact h1
      · rw [(tr.enter hs hk).2]
    · obtain ⟨b, hb, hbm⟩ := tr.body pc s hs hk
      exact ih q n p (Or.inr (Or.inr ⟨b, hb, hbm, by rw [hfs]; exact h3⟩)) hc
    · rw [hs] at hs'; cases hs'; exact (measure_not_do hm hk).elim
  | again pc s o c rs c' hs hk ho h ih =>
    rcases hp with ⟨j, h1, h2, h3, rfl⟩ | ⟨s', hs', hd, _⟩ | ⟨s', hs', hm, _⟩
    · have hpc := lt_of hs
      obtain ⟨o', ho', _⟩ := tr.close hs hk
      have hop' := (openAt_iff _ _ _).mp ((tr.known pc (by omega)).opened o' ho')
      have hop := (openAt_iff _ _ _).mp ho
      have hoo : o = o' := by
        obtain ⟨d, hd, hdd⟩ := hop.2.1
        obtain ⟨d', hd', hdd'⟩ := hop'.2.1
        rcases Nat.lt_trichotomy o o' with hh | hh | hh
        · exact absurd hdd' (hop.2.2 o' d' hh hop'.1 hd').1
        · exact hh
        · exact absurd hdd (hop'.2.2 o d hh hop.1 hd).1
      subst hoo
      obtain ⟨d, hd, hdd⟩ := hop.2.1
      refine ih q n (S pc).adv (Or.inr (Or.inl ⟨d, hd, hdd, ?_⟩)) hc
      have hslot : Slot steps off S pc ((j : Int) + off + 1) ((o : Int) + off + 1) :=
        ⟨hpc, h1, Or.inr ⟨s, o, hs, hk, ho', rfl⟩⟩
      obtain ⟨sj, hsj, hmj⟩ := h2.2.1
      have himg : img all ((j : Int) + off + 1, (o : Int) + off + 1) =
          some (lastSeqOf steps j, (firstSeq steps o : Int)) := by
        unfold img
        simp only [measure_last hall hsj hmj, any_first hall hd]
      have hget := (tr.seq_get hall hD _).1 pc _ _ hslot himg
      subst h3
      unfold jump
      by_cases hne : (firstSeq steps o : Int) ≠ lastSeqOf steps j
      · rw [if_pos hne]
        unfold Rules.seqAdvance
        exact hget.symm
      · rw [if_neg hne]
        have hadv0 := (tr.known pc (by omega)).adv
        by_contra hcon
        obtain ⟨k, rfl⟩ : ∃ k, pc = k + 1 := ⟨pc - 1, by have := hop.1; omega⟩
        have hjo : o < j := by
          obtain ⟨j', hp', _, hlt⟩ := tr.inBody (by omega) hs hk ho'
          rw [h1] at hp'
          have := Option.some.inj hp'
          omega
        obtain ⟨sk, hsk, hkind⟩ := tr.kind (k := k) (by omega)
        have hko : o < k := by have := h2.1; omega
        have hmk := hop.2.2 k sk hko (by omega) hsk
        rcases hkind with hm | ha | hd' | hl'
        · exact hcon ((tr.known (k + 1) (by omega)).recent k rfl sk hsk hm)
        · have h2' := two o k sk s ho hsk ha hs hk
          have hflat := firstSeq_flat (steps := steps) (i := j + 1) (k := k + 1) h2.1 ?_ (by omega)
          · unfold lastSeqOf at hne
            omega
          · intro x sx hx1 hx2 hsx
            have hn1 := h2.2.2 x sx hx1 hx2 hsx
            have hn2 := hop.2.2 x sx (by omega) hx2 hsx
            have : IsAdv sx := by
              rcases tr.kinds sx (List.mem_of_getElem? hsx) with h | h | h | h
              · exact absurd h hn1
              · exact h
              · exact absurd h hn2.1
              · exact absurd h hn2.2
            unfold seqCount
            exact if_pos (Or.inr (Or.inr this))
        · exact hmk.1 hd'
        · exact hmk.2 hl'
    · rw [hs] at hs'; cases hs'; exact (do_not_loop hd hk).elim
    · rw [hs] at hs'; cases hs'; exact (measure_not_loop hm hk).elim
  | leave pc s c rs c' hs hk h ih =>
    rcases hp with ⟨j, h1, h2, h3, rfl⟩ | ⟨s', hs', hd, _⟩ | ⟨s', hs', hm, _⟩
    · obtain ⟨o', ho', e1, e2, e3, _⟩ := tr.close hs hk
      refine ih q n (S pc).adv (Or.inl ⟨j, by rw [e3]; exact h1,
        lastMeasure_succ h2 hs (fun h => measure_not_loop h hk), h3, by rw [e2]⟩) hc
    · rw [hs] at hs'; cases hs'; exact (do_not_loop hd hk).elim
    · rw [hs] at hs'; cases hs'; exact (measure_not_loop hm hk).elim
  | measure pc s c now rs c' hs hk he h ih =>
    have hpc := lt_of hs
    have hj : n + jump r q (firstSeq steps pc) = c := by
      rcases hp with ⟨j, h1, h2, h3, rfl⟩ | ⟨s', hs', hd, _⟩ | ⟨s', hs', hm, h3⟩
      · have hslot : Slot steps off S pc ((j : Int) + off + 1) ((pc : Int) + off + 1) :=
          ⟨hpc, h1, Or.inl ⟨s, hs, hk, rfl⟩⟩
        obtain ⟨sj, hsj, hmj⟩ := h2.2.1
        have himg : img all ((j : Int) + off + 1, (pc : Int) + off + 1) =
            some (lastSeqOf steps j, (firstSeq steps pc : Int)) := by
          unfold img
          simp only [measure_last hall hsj hmj, any_first hall hs]
        have hget := (tr.seq_get hall hD _).1 pc _ _ hslot himg
        have hne : (firstSeq steps pc : Int) ≠ lastSeqOf steps j := by
          unfold lastSeqOf
          have := firstSeq_mono steps (j + 1) pc h2.1
          omega
        subst h3
        unfold jump
        rw [if_pos hne]
        unfold Rules.seqAdvance
        rw [hget, hc]
      · rw [hs] at hs'; cases hs'; exact (measure_not_do hk hd).elim
      · rw [← h3, hc]
    have hin : s.limits ≠ none → r.seqAdvance (firstSeq steps pc) ((firstSeq steps pc : Int) + 1) = 0 := by
      intro hl
      unfold Rules.seqAdvance
      rw [tr.inner hall hD hs hk hl]
      rfl
    obtain ⟨e1, e2, e3⟩ := tr.measure' hs hk
    have := ih (lastSeqOf steps pc) c 0 (Or.inl ⟨pc, e3, ⟨by omega, ⟨s, hs, hk⟩, by intro i _ h1 h2; omega⟩, rfl, e1.symm⟩)
      (by omega)
    rw [List.map_append, List.map_append, numberRows_emits r steps pc s hs hk l q n c now he hj hin]
    exact ⟨by rw [this.1], this.2⟩

theorem Trace.onStart_const (tr : Trace steps off oT cT bo bc carry S) {k : Nat} (hk : k ≤ steps.length)
    (hp : (S k).prevMeas ≠ none) (d : Nat) (hd : k + d ≤ steps.length) :
    (S (k + d)).onStart = (S k).onStart ∧ (S (k + d)).prevMeas ≠ none := by
  induction d with
  | zero => exact ⟨rfl, hp⟩
  | succ d ih =>
    have ih := ih (by omega)
    obtain ⟨s, hs, hkind⟩ := tr.kind (k := k + d) (by omega)
    rw [show k + (d + 1) = k + d + 1 by omega]
    rcases hkind with hm | ha | hdo | hl
    · rcases tr.measure hs hm with ⟨h, e⟩ | ⟨m, _, _, e⟩ | ⟨m, _, _, e⟩
      · exact absurd h ih.2
      · rw [e]; exact ⟨ih.1, by simp⟩
      · rw [e]; exact ⟨ih.1, by simp⟩
    · rw [tr.adv hs ha]; exact ih
    · rw [(tr.enter hs hdo).2]; exact ih
    · obtain ⟨o, _, _, _, e3, e4, _⟩ := tr.close hs hl
      rw [e3, e4]; exact ih

/-- the walk up to and after the first record -/
theorem Trace.walk_start (tr : Trace steps off oT cT bo bc carry S) {all : List Numbered}
    (hall : numberSteps ((off : Int) + 1) 0 steps = .ok all) {r : Rules}
    (hD : toSeqTransitions (seqNumsByStep all) (S steps.length).trans [] = .ok r.seqTransitions)
    (two : ∀ (o k : Nat) s l, OpenAt steps o (k + 1) → steps[k]? = some s → IsAdv s →
      steps[k + 1]? = some l → IsLoop l → firstSeq steps o + 2 ≤ firstSeq steps (k + 1))
    (hmeas : ∃ s ∈ steps, IsMeasure s)
    {pc : Nat} {c c' : Int} {rs : List (Int × Int)} (h : Walk steps pc c rs c') (l c0 : Int)
    (hp : (S pc).prevMeas = none) (hc : c = c0 + (S pc).adv) :
    ∃ f tail, rs = (f, c0 + ((S steps.length).onStart - carry)) :: tail ∧
    (numberRows r l f (c0 + ((S steps.length).onStart - carry)) (rs.map (fun x => (x.1, l)))).1 = rs.map Prod.snd ∧
    c' = (numberRows r l f (c0 + ((S steps.length).onStart - carry)) (rs.map (fun x => (x.1, l)))).2 +
      (S steps.length).adv := by
  have lt_of : ∀ {k : Nat} {s : Step}, steps[k]? = some s → k < steps.length :=
    fun h => (List.getElem?_eq_some_iff.mp h).1
  induction h with
  | done c =>
    obtain ⟨s, hs, hm⟩ := hmeas
    obtain ⟨i, hi⟩ := List.mem_iff_getElem?.mp hs
    exact absurd hm (((tr.known steps.length (le_refl _)).noPrev hp).1 i s (lt_of hi) hi)
  | adv pc s c rs c' hs hk h ih =>
    apply ih
    · rw [tr.adv hs hk]; exact hp
    · rw [tr.adv hs hk]
      show c + 1 = c0 + ((S pc).adv + 1)
      omega
  | enter pc s c rs c' hs hk h ih =>
    apply ih
    · rw [(tr.enter hs hk).2]; exact hp
    · rw [(tr.enter hs hk).2]; exact hc
  | again pc s o c rs c' hs hk ho h ih =>
    obtain ⟨o', ho', _⟩ := tr.close hs hk
    obtain ⟨j, hj, _⟩ := tr.inBody (by have := lt_of hs; omega) hs hk ho'
    rw [hp] at hj; cases hj
  | leave pc s c rs c' hs hk h ih =>
    obtain ⟨o', ho', _⟩ := tr.close hs hk
    obtain ⟨j, hj, _⟩ := tr.inBody (by have := lt_of hs; omega) hs hk ho'
    rw [hp] at hj; cases hj
  | measure pc s c now rs c' hs hk he h ih =>
    have hpc := lt_of hs
    have hfin : (S steps.length).onStart - carry = (S pc).adv := by
      rcases tr.measure hs hk with ⟨_, e⟩ | ⟨m, h, _, e⟩ | ⟨m, h, _, e⟩
      · have hpm : (S (pc + 1)).prevMeas ≠ none := by rw [e]; simp
        have := (tr.onStart_const (k := pc + 1) hpc hpm (steps.length - (pc + 1)) (by omega)).1
        rw [show pc + 1 + (steps.length - (pc + 1)) = steps.length by omega] at this
        rw [this, e]
        show (S pc).onStart + (S pc).adv - carry = _
        rw [((tr.known pc (by omega)).noPrev hp).2]
        omega
      · rw [hp] at h; cases h
      · rw [hp] at h; cases h
    rw [hfin, ← hc]
    have hin : s.limits ≠ none → r.seqAdvance (firstSeq steps pc) ((firstSeq steps pc : Int) + 1) = 0 := by
      intro hl
      unfold Rules.seqAdvance
      rw [tr.inner hall hD hs hk hl]
      rfl
    obtain ⟨e1, e2, e3⟩ := tr.measure' hs hk
    have key := tr.walk hall hD two h l (lastSeqOf steps pc) c 0
      (Or.inl ⟨pc, e3, ⟨by omega, ⟨s, hs, hk⟩, by intro i _ h1 h2; omega⟩, rfl, e1.symm⟩) (by omega)
    have hnow : ∃ tl, now = ((firstSeq steps pc : Int), c) :: tl := by
      rcases he with ⟨_, n, rfl⟩ | ⟨_, n, m, rfl⟩
      · exact ⟨_, List.replicate_succ⟩
      · exact ⟨_, by rw [List.replicate_succ, List.cons_append]⟩
    have hnum := numberRows_emits r steps pc s hs hk l (firstSeq steps pc) c c now he (by unfold jump; simp) hin
      (rs.map (fun x => (x.1, l)))
    obtain ⟨tl, htl⟩ := hnow
    refine ⟨firstSeq steps pc, tl ++ rs, by rw [htl]; rfl, ?_, ?_⟩
    · rw [List.map_append, hnum, key.1, List.map_append]
    · rw [List.map_append, hnum]
      exact key.2

/-- no leading `AdvCycle`: nothing is counted before the first record -/
theorem Trace.lead_zero (tr : Trace steps off oT cT bo bc carry S) (hmeas : ∃ s ∈ steps, IsMeasure s)
    (hfirst : ∀ s, steps[0]? = some s → ¬ IsAdv s) : (S steps.length).onStart = carry := by
  have hz : (S 0).prevMeas = none := by rw [tr.zero]
  have conclude : ∀ (k : Nat) s, steps[k]? = some s → IsMeasure s → (S k).prevMeas = none → (S k).adv = 0 →
      (S steps.length).onStart = carry := by
    intro k s hs hm hp ha
    have hk := (List.getElem?_eq_some_iff.mp hs).1
    rcases tr.measure hs hm with ⟨_, e⟩ | ⟨m, h, _, e⟩ | ⟨m, h, _, e⟩
    · have hpm : (S (k + 1)).prevMeas ≠ none := by rw [e]; simp
      have := (tr.onStart_const (k := k + 1) hk hpm (steps.length - (k + 1)) (by omega)).1
      rw [show k + 1 + (steps.length - (k + 1)) = steps.length by omega] at this
      rw [this, e]
      show (S k).onStart + (S k).adv = _
      rw [((tr.known k (by omega)).noPrev hp).2, ha]
      omega
    · rw [hp] at h; cases h
    · rw [hp] at h; cases h
  have hlen : 0 < steps.length := by
    obtain ⟨s, hs, _⟩ := hmeas
    exact List.length_pos_of_mem hs
  obtain ⟨s, hs, hkind⟩ := tr.kind hlen
  rcases hkind with hm | ha | hd | hl
  · exact conclude 0 s hs hm hz (by rw [tr.zero])
  · exact absurd ha (hfirst s hs)
  · obtain ⟨b, hb, hbm⟩ := tr.body 0 s hs hd
    refine conclude 1 b hb hbm ?_ ?_ <;> rw [(tr.enter hs hd).2]
    · exact hz
    · show (S 0).adv = 0
      rw [tr.zero]
  · obtain ⟨o, ho, _⟩ := tr.close hs hl
    rw [tr.zero] at ho; cases ho

end

/-- the columns of a record -/
def cols (r : Record) : Int × Int := (r.seq, r.lap)

section
variable {steps : List Step} {off : Nat} {oT cT bo bc : String} {carry : Int} {S : Nat → RState}

theorem inLap_cols (lap : Int) (rs : List (Int × Int)) : (inLap lap rs).map cols = rs.map (fun x => (x.1, lap)) := by
  unfold inLap; rw [List.map_map]; rfl

theorem inLap_cycle (lap : Int) (rs : List (Int × Int)) : (inLap lap rs).map Record.cycle = rs.map Prod.snd := by
  unfold inLap; rw [List.map_map]; rfl

theorem Trace.laps (tr : Trace steps off oT cT bo bc carry S) {all : List Numbered}
    (hall : numberSteps ((off : Int) + 1) 0 steps = .ok all) {r : Rules}
    (hD : toSeqTransitions (seqNumsByStep all) (S steps.length).trans [] = .ok r.seqTransitions)
    (two : ∀ (o k : Nat) s l, OpenAt steps o (k + 1) → steps[k]? = some s → IsAdv s →
      steps[k + 1]? = some l → IsLoop l → firstSeq steps o + 2 ≤ firstSeq steps (k + 1))
    (hmeas : ∃ s ∈ steps, IsMeasure s) (hloop : r.onTechLoop = (S steps.length).adv)
    (hlead : (S steps.length).onStart = carry) {lap c c' : Int} {rs : List Record} (h : Laps steps lap c rs c') :
    ∃ f tail, rs = ⟨f, lap, c⟩ :: tail ∧ (numberRows r lap f c (rs.map cols)).1 = rs.map Record.cycle ∧
      c' = (numberRows r lap f c (rs.map cols)).2 + (S steps.length).adv := by
  have hz : (S 0).prevMeas = none := by rw [tr.zero]
  have ha : (S 0).adv = 0 := by rw [tr.zero]
  induction h with
  | last lap c rs c' h =>
    obtain ⟨f, tail, e1, e2, e3⟩ := tr.walk_start hall hD two hmeas h lap c hz (by omega)
    rw [hlead, Int.sub_self, Int.add_zero] at e1 e2 e3
    rw [inLap_cols, inLap_cycle]
    exact ⟨f, inLap lap tail, by rw [e1]; rfl, e2, e3⟩
  | more lap c rs c' rs' c'' h h' ih =>
    obtain ⟨f, tail, e1, e2, e3⟩ := tr.walk_start hall hD two hmeas h lap c hz (by omega)
    rw [hlead, Int.sub_self, Int.add_zero] at e1 e2 e3
    obtain ⟨f', tail', g1, g2, g3⟩ := ih
    refine ⟨f, inLap lap tail ++ rs', by rw [e1]; rfl, ?_⟩
    rw [List.map_append, List.map_append, inLap_cols, inLap_cycle]
    obtain ⟨q, hq⟩ := numberRows_append r lap (rs.map (fun x => (x.1, lap))) (by rw [e1]; simp)
      (by intro p hp; obtain ⟨x, _, rfl⟩ := List.mem_map.mp hp; rfl) lap f c (rs'.map cols)
    have hnext : numberRows r lap q (numberRows r lap f c (rs.map (fun x => (x.1, lap)))).2 (rs'.map cols) =
        numberRows r (lap + 1) f' c' (rs'.map cols) := by
      rw [g1]
      exact numberRows_lap r lap q _ (lap + 1) f' c' (by omega) (by rw [hloop]; omega) _
    rw [hq, hnext, e2, g2]
    exact ⟨rfl, g3⟩

end

/-- the rules of a regular technique -/
theorem rulesOf_trace (carry : Int) (cv : Converted) (out : Rules × Int) (h : rulesOf carry cv = .ok out)
    (hr : Regular cv.tech) :
    ∃ oT cT bo bc S, Trace cv.tech.steps cv.tech.offset oT cT bo bc carry S ∧
      toSeqTransitions (seqNumsByStep cv.numbered) (S cv.tech.steps.length).trans [] = .ok out.1.seqTransitions ∧
      out.1.onStart = (S cv.tech.steps.length).onStart ∧ out.1.onTechLoop = (S cv.tech.steps.length).adv ∧
      out.2 = (S cv.tech.steps.length).adv := by
  unfold rulesOf at h
  simp only [bind, Except.bind] at h
  split at h
  · cases h
  rename_i st hst
  split at h
  · cases h
  rename_i seqT hseq
  cases h
  obtain ⟨S, s1, s2, s3⟩ := ruleLoop_states _ _ _ _ _ _ _ _ _ 0 rfl (by omega) hst
  refine ⟨_, _, _, _, S, ⟨?_, s1, fun k s hs => s3 k s (by omega) hs, hr.kinds, hr.body⟩, by rw [s2]; exact hseq,
    by rw [s2], by rw [s2], by rw [s2]⟩
  unfold Types
  cases cv.tech.loops <;> simp

/-- the numbering of a list of technique files -/
theorem runs_numbered (cs : List Converted) (carry cyc : Int) (rules : List Rules) (h : createRules carry cs = .ok rules)
    (hr : ∀ cv ∈ cs, Regular cv.tech ∧ numberSteps ((cv.tech.offset : Int) + 1) 0 cv.tech.steps = .ok cv.numbered)
    (files : List (List Record)) (hrun : Runs (cs.map Converted.tech) (cyc + carry) files) :
    addCycleNums cyc (rules.zip (files.map (List.map cols))) = .ok (files.map (List.map Record.cycle)) := by
  induction cs generalizing carry cyc rules files with
  | nil =>
    rw [createRules] at h
    cases h
    cases hrun
    rfl
  | cons cv cs ih =>
    rw [createRules] at h
    simp only [bind, Except.bind] at h
    split at h
    · cases h
    rename_i out hout
    split at h
    · cases h
    rename_i rest hrest
    cases h
    obtain ⟨reg, hall⟩ := hr cv (List.mem_cons_self ..)
    obtain ⟨oT, cT, bo, bc, S, tr, hD, h1, h2, h3⟩ := rulesOf_trace carry cv out hout reg
    have hz : (S 0).prevMeas = none := by rw [tr.zero]
    have ha : (S 0).adv = 0 := by rw [tr.zero]
    have finish : ∀ (f l : Int) (tail : List Record) (rs : List Record) (c' : Int) (files : List (List Record)),
        (∃ x, rs = ⟨f, l, x⟩ :: tail) →
        (numberRows out.1 l f (cyc + out.1.onStart) (rs.map cols)).1 = rs.map Record.cycle →
        c' = (numberRows out.1 l f (cyc + out.1.onStart) (rs.map cols)).2 + out.2 →
        Runs (cs.map Converted.tech) c' files →
        addCycleNums cyc ((out.1 :: rest).zip ((rs :: files).map (List.map cols))) =
          .ok ((rs :: files).map (List.map Record.cycle)) := by
      intro f l tail rs c' files hx e2 e3 hruns
      obtain ⟨x, rfl⟩ := hx
      rw [e3] at hruns
      have hi := ih out.2 _ rest hrest (fun cv hcv => hr cv (List.mem_cons_of_mem _ hcv)) files hruns
      rw [List.map_cons, List.zip_cons_cons, List.map_cons]
      show addCycleNums cyc ((out.1, (f, l) :: tail.map cols) :: _) = _
      rw [addCycleNums]
      have hcols : (({ seq := f, lap := l, cycle := x } : Record) :: tail).map cols = (f, l) :: tail.map cols := rfl
      rw [hcols] at hi e2
      rw [hi]
      show Except.ok (_ :: _) = _
      rw [e2]
      rfl
    rw [List.map_cons] at hrun
    cases hrun with
    | plain _ _ _ rs c' files hl hw hruns =>
      obtain ⟨f, tail, e1, e2, e3⟩ := tr.walk_start hall hD reg.two reg.measures hw 0 (cyc + carry) hz (by omega)
      have hcnt : cyc + carry + ((S cv.tech.steps.length).onStart - carry) = cyc + out.1.onStart := by omega
      rw [hcnt] at e1 e2 e3
      refine finish f 0 (inLap 0 tail) (inLap 0 rs) c' files ⟨_, by rw [e1]; rfl⟩ ?_ ?_ hruns
      · rw [inLap_cols, inLap_cycle]; exact e2
      · rw [inLap_cols, h3]; exact e3
    | loops _ _ _ rs c' files hl hw hruns =>
      have hlead := tr.lead_zero reg.measures (reg.start hl)
      obtain ⟨f, tail, e1, e2, e3⟩ := tr.laps hall hD reg.two reg.measures h2 hlead hw
      have hcnt : cyc + carry = cyc + out.1.onStart := by omega
      rw [hcnt] at e1 e2 e3
      exact finish f 0 tail rs c' files ⟨_, e1⟩ e2 (by rw [h3]; exact e3) hruns

end Beep.Proof.CycleCount
