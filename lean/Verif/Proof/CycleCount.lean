import Verif.Spec.CycleCount
import Verif.Proof.Py
import Verif.Props.MtbSeqs
import Verif.Props.CycleRules
/-
Lemmas for C23.
-/
namespace Beep.Proof.CycleCount
open Beep Beep.MtB Beep.CycleRules Beep.Spec.MtB Beep.Spec.CycleCount Beep.Props.MtbSeqs

/-! ### kinds of steps -/

theorem seqCount_measure {s : Step} (h : IsMeasure s) : seqCount s = if s.limits = none then 1 else 2 := by
  unfold seqCount
  rcases h with h | h | h <;> simp [h]

theorem seqCount_pos {s : Step} (h : IsMeasure s) : 1 ≤ seqCount s := by
  rw [seqCount_measure h]; split <;> omega

theorem seqCount_do {s : Step} (h : IsDo s) : seqCount s = 0 := by
  unfold seqCount
  rcases h with h | h <;> simp [h]

theorem measure_not_do {s : Step} (h : IsMeasure s) (h' : IsDo s) : False := by
  unfold IsMeasure IsDo at *
  rcases h with h | h | h <;> rcases h' with h' | h' <;> rw [h] at h' <;> simp at h'

theorem measure_not_loop {s : Step} (h : IsMeasure s) (h' : IsLoop s) : False := by
  unfold IsMeasure IsLoop at *
  rcases h with h | h | h <;> rcases h' with h' | h' <;> rw [h] at h' <;> simp at h'

theorem measure_not_adv {s : Step} (h : IsMeasure s) (h' : IsAdv s) : False := by
  unfold IsMeasure IsAdv at *
  rcases h with h | h | h <;> rw [h] at h' <;> simp at h'

theorem adv_not_do {s : Step} (h : IsAdv s) (h' : IsDo s) : False := by
  unfold IsAdv IsDo at *
  rcases h' with h' | h' <;> rw [h] at h' <;> simp at h'

theorem adv_not_loop {s : Step} (h : IsAdv s) (h' : IsLoop s) : False := by
  unfold IsAdv IsLoop at *
  rcases h' with h' | h' <;> rw [h] at h' <;> simp at h'

theorem do_not_loop {s : Step} (h : IsDo s) (h' : IsLoop s) : False := by
  unfold IsDo IsLoop at *
  rcases h with h | h <;> rcases h' with h' | h' <;> rw [h] at h' <;> simp at h'

/-! ### the states of the rule generator -/

/-- the loop types of a technique -/
def Types (oT cT bo bc : String) : Prop :=
  (oT = "Do 1" ∧ cT = "Loop 1" ∧ bo = "Do 2" ∧ bc = "Loop 2") ∨
  (oT = "Do 2" ∧ cT = "Loop 2" ∧ bo = "Do 1" ∧ bc = "Loop 1")

/-- the generator succeeded on a regular technique; `S k` is its state before step `k` -/
structure Trace (steps : List Step) (off : Nat) (oT cT bo bc : String) (carry : Int) (S : Nat → RState) : Prop where
  types : Types oT cT bo bc
  zero : S 0 = { adv := 0, onStart := carry, opened := none, prevMeas := none, trans := [] }
  step : ∀ k s, steps[k]? = some s → ruleStep steps off oT cT bo bc (S k) k s = .ok (S (k + 1))
  kinds : ∀ s ∈ steps, IsMeasure s ∨ IsAdv s ∨ IsDo s ∨ IsLoop s
  body : ∀ (o : Nat) d, steps[o]? = some d → IsDo d → ∃ s, steps[o + 1]? = some s ∧ IsMeasure s

theorem ruleLoop_states (steps : List Step) (off : Nat) (oT cT bo bc : String) (rest : List Step) (st fin : RState)
    (i : Nat) (hr : steps.drop i = rest) (hi : i ≤ steps.length)
    (h : ruleLoop steps off oT cT bo bc st i rest = .ok fin) :
    ∃ S : Nat → RState, S i = st ∧ S steps.length = fin ∧
      ∀ k s, i ≤ k → steps[k]? = some s → ruleStep steps off oT cT bo bc (S k) k s = .ok (S (k + 1)) := by
  induction rest generalizing st i with
  | nil =>
    rw [ruleLoop] at h
    cases h
    have : i = steps.length := by
      have := congrArg List.length hr
      simp at this
      omega
    subst this
    refine ⟨fun _ => fin, rfl, rfl, ?_⟩
    intro k s hk hs
    rw [List.getElem?_eq_none (by omega)] at hs
    cases hs
  | cons s ss ih =>
    rw [ruleLoop] at h
    simp only [bind, Except.bind] at h
    split at h
    · cases h
    rename_i st' hst
    have hlt : i < steps.length := by
      have := congrArg List.length hr
      simp at this
      omega
    have hs : steps[i]? = some s := by
      have : (steps.drop i)[0]? = some s := by rw [hr]; rfl
      simpa using this
    obtain ⟨S, e1, e2, e3⟩ := ih st' (i + 1) (by rw [← List.drop_drop, hr]; rfl) hlt h
    refine ⟨fun k => if k = i then st else S k, by simp, ?_, ?_⟩
    · simp only
      rw [if_neg (by omega), e2]
    · intro k s' hk hs'
      simp only
      by_cases hki : k = i
      · subst hki
        rw [hs] at hs'
        cases hs'
        rw [if_pos rfl, if_neg (by omega), hst, e1]
      · rw [if_neg hki, if_neg (by omega)]
        exact e3 k s' (by omega) hs'

section
variable {steps : List Step} {off : Nat} {oT cT bo bc : String} {carry : Int} {S : Nat → RState}

theorem Trace.adv (tr : Trace steps off oT cT bo bc carry S) {k : Nat} {s : Step} (hs : steps[k]? = some s)
    (hk : IsAdv s) : S (k + 1) = { S k with adv := (S k).adv + 1 } := by
  have h := tr.step k s hs
  have ht : s.stepType = "AdvCycle" := hk
  unfold ruleStep at h
  rcases tr.types with ⟨rfl, rfl, rfl, rfl⟩ | ⟨rfl, rfl, rfl, rfl⟩ <;>
  · simp [ht] at h
    exact h.symm

theorem Trace.enter (tr : Trace steps off oT cT bo bc carry S) {k : Nat} {s : Step} (hs : steps[k]? = some s)
    (hk : IsDo s) : (S k).opened = none ∧ S (k + 1) = { S k with opened := some k } := by
  have h := tr.step k s hs
  unfold ruleStep at h
  rcases tr.types with ⟨rfl, rfl, rfl, rfl⟩ | ⟨rfl, rfl, rfl, rfl⟩ <;> rcases hk with ht | ht <;>
  · simp [ht] at h
    try
      cases ho : (S k).opened with
      | none => rw [ho] at h; simp at h; exact ⟨rfl, h.symm⟩
      | some o => rw [ho] at h; simp at h

theorem Trace.measure (tr : Trace steps off oT cT bo bc carry S) {k : Nat} {s : Step} (hs : steps[k]? = some s)
    (hk : IsMeasure s) :
    ((S k).prevMeas = none ∧ S (k + 1) = ⟨0, (S k).onStart + (S k).adv, (S k).opened,
      some ((k : Int) + off + 1), (S k).trans⟩) ∨
    (∃ m, (S k).prevMeas = some m ∧ (S k).adv > 0 ∧ S (k + 1) = ⟨0, (S k).onStart, (S k).opened,
      some ((k : Int) + off + 1), (S k).trans.set (m, (k : Int) + off + 1) (S k).adv⟩) ∨
    (∃ m, (S k).prevMeas = some m ∧ ¬ (S k).adv > 0 ∧ S (k + 1) = ⟨0, (S k).onStart, (S k).opened,
      some ((k : Int) + off + 1), (S k).trans⟩) := by
  have h := tr.step k s hs
  have key : ruleStep steps off oT cT bo bc (S k) k s = match s.reports with
    | .absent => .error .assertionError
    | _ =>
      match (S k).prevMeas with
      | none => .ok ⟨0, (S k).onStart + (S k).adv, (S k).opened, some ((k : Int) + off + 1), (S k).trans⟩
      | some m =>
        if (S k).adv > 0 then
          .ok ⟨0, (S k).onStart, (S k).opened, some ((k : Int) + off + 1),
            (S k).trans.set (m, (k : Int) + off + 1) (S k).adv⟩
        else .ok ⟨0, (S k).onStart, (S k).opened, some ((k : Int) + off + 1), (S k).trans⟩ := by
    unfold ruleStep
    rcases tr.types with ⟨rfl, rfl, rfl, rfl⟩ | ⟨rfl, rfl, rfl, rfl⟩ <;> rcases hk with ht | ht | ht <;>
    · simp only [ht]
      rw [if_neg (by simp), if_neg (by simp), if_neg (by simp), if_neg (by simp)]
      cases s.reports <;> cases (S k).prevMeas <;> rfl
  rw [key] at h
  split at h
  · cases h
  · split at h
    · rename_i hm
      exact Or.inl ⟨hm, (Except.ok.inj h).symm⟩
    · rename_i m hm
      split at h
      · rename_i ha
        exact Or.inr (Or.inl ⟨m, hm, ha, (Except.ok.inj h).symm⟩)
      · rename_i ha
        exact Or.inr (Or.inr ⟨m, hm, ha, (Except.ok.inj h).symm⟩)

/-- the part of a measurement step that does not depend on the case -/
theorem Trace.measure' (tr : Trace steps off oT cT bo bc carry S) {k : Nat} {s : Step} (hs : steps[k]? = some s)
    (hk : IsMeasure s) : (S (k + 1)).adv = 0 ∧ (S (k + 1)).opened = (S k).opened ∧
      (S (k + 1)).prevMeas = some ((k : Int) + off + 1) := by
  rcases tr.measure hs hk with ⟨_, h⟩ | ⟨m, _, _, h⟩ | ⟨m, _, _, h⟩ <;> rw [h] <;> exact ⟨rfl, rfl, rfl⟩

theorem Trace.close (tr : Trace steps off oT cT bo bc carry S) {k : Nat} {s : Step} (hs : steps[k]? = some s)
    (hk : IsLoop s) : ∃ o, (S k).opened = some o ∧ (S (k + 1)).opened = none ∧ (S (k + 1)).adv = (S k).adv ∧
      (S (k + 1)).prevMeas = (S k).prevMeas ∧ (S (k + 1)).onStart = (S k).onStart ∧
      (((S k).adv > 0 ∧ ∃ m, (S k).prevMeas = some m ∧
        (o < k → (∀ d, steps[o]? = some d → IsDo d) → (∃ d, steps[o]? = some d) → m ≠ (o : Int) + off + 1 →
          (S (k + 1)).trans = (S k).trans.set (m, (o : Int) + off + 1) (S k).adv)) ∨
       (¬ (S k).adv > 0 ∧ (S (k + 1)).trans = (S k).trans)) := by
  have h := tr.step k s hs
  have key : ruleStep steps off oT cT bo bc (S k) k s = match (S k).opened with
    | none => .error .valueError
    | some o =>
      if (S k).adv > 0 then
        match (S k).prevMeas with
        | none => .error .valueError
        | some m => do
          match ← loopSearch steps off ((k : Int) + off + 1) m (k - o) (o + 1) (S k).adv with
          | none => return { S k with opened := none }
          | some (looped, n) => return { S k with trans := (S k).trans.set (m, looped) n, opened := none }
      else .ok { S k with opened := none } := by
    have hb : ¬ (s.stepType = bc ∨ s.stepType = bo) := by
      intro hb
      unfold ruleStep at h
      simp only at h
      rw [if_pos hb] at h
      cases h
    have h1 : s.stepType ≠ "AdvCycle" := fun hh => adv_not_loop hh hk
    have h2 : s.stepType ≠ oT := by
      rcases tr.types with ⟨rfl, rfl, rfl, rfl⟩ | ⟨rfl, rfl, rfl, rfl⟩ <;> intro hh
      · exact do_not_loop (Or.inl hh) hk
      · exact do_not_loop (Or.inr hh) hk
    have h3 : s.stepType = cT := by
      rcases tr.types with ⟨rfl, rfl, rfl, rfl⟩ | ⟨rfl, rfl, rfl, rfl⟩ <;> rcases hk with hk | hk
      · exact hk
      · exact absurd (Or.inl hk) hb
      · exact absurd (Or.inl hk) hb
      · exact hk
    unfold ruleStep
    simp only
    rw [if_neg hb, if_neg h1, if_neg h2, if_pos h3]
    cases (S k).opened with
    | none => rfl
    | some o =>
      simp only
      split
      · cases (S k).prevMeas with
        | none => rfl
        | some m =>
          simp only [bind, Except.bind]
          cases loopSearch steps off ((k : Int) + off + 1) m (k - o) (o + 1) (S k).adv with
          | error e => rfl
          | ok r => cases r <;> rfl
      · rfl
  rw [key] at h
  cases ho : (S k).opened with
  | none => rw [ho] at h; cases h
  | some o =>
    rw [ho] at h
    simp only at h
    refine ⟨o, rfl, ?_⟩
    by_cases ha : (S k).adv > 0
    · rw [if_pos ha] at h
      cases hm : (S k).prevMeas with
      | none => rw [hm] at h; cases h
      | some m =>
        rw [hm] at h
        simp only [bind, Except.bind] at h
        cases hl : loopSearch steps off ((k : Int) + off + 1) m (k - o) (o + 1) (S k).adv with
        | error e => rw [hl] at h; cases h
        | ok r =>
          rw [hl] at h
          have hex : ∃ T, S (k + 1) = ⟨(S k).adv, (S k).onStart, none, some m, T⟩ ∧
              (∀ l n, r = some (l, n) → T = (S k).trans.set (m, l) n) := by
            cases r with
            | none => exact ⟨(S k).trans, (Except.ok.inj h).symm, by intro _ _ h; cases h⟩
            | some q =>
              refine ⟨(S k).trans.set (m, q.1) q.2, (Except.ok.inj h).symm, ?_⟩
              intro l n hq
              cases hq
              rfl
          obtain ⟨T, hT, hT'⟩ := hex
          rw [hT]
          refine ⟨rfl, rfl, rfl, rfl, Or.inl ⟨ha, m, rfl, ?_⟩⟩
          intro hok hd hex hne
          show T = _
          apply hT'
          obtain ⟨d, hd0⟩ := hex
          obtain ⟨b, hb, hbm⟩ := tr.body o d hd0 (hd d hd0)
          obtain ⟨f, hf⟩ : ∃ f, k - o = f + 1 := ⟨k - o - 1, by omega⟩
          rw [hf, loopSearch] at hl
          rw [if_neg (by push_cast; omega), if_neg (by push_cast; omega), if_neg] at hl
          · cases hl
            push_cast
            congr 2
            ring
          · rw [hb]
            simp only [Option.map_some, Option.some.injEq]
            intro hh
            rcases hbm with h | h | h <;> rw [hh] at h <;> simp at h
    · rw [if_neg ha] at h
      rw [← Except.ok.inj h]
      exact ⟨rfl, rfl, rfl, rfl, Or.inr ⟨ha, rfl⟩⟩

/-! ### what the states know -/

/-- the last measurement before position `k` is at position `j` -/
def LastMeasure (steps : List Step) (k j : Nat) : Prop :=
  j < k ∧ (∃ s, steps[j]? = some s ∧ IsMeasure s) ∧ ∀ (i : Nat) s, j < i → i < k → steps[i]? = some s → ¬ IsMeasure s

theorem openAt_iff (o k : Nat) (steps : List Step) :
    OpenAt steps o k ↔ o < k ∧ (∃ d, steps[o]? = some d ∧ IsDo d) ∧
      ∀ (j : Nat) s, o < j → j < k → steps[j]? = some s → ¬ IsDo s ∧ ¬ IsLoop s := by
  unfold OpenAt IsDo IsLoop
  constructor
  · rintro ⟨h1, h2, h3⟩
    exact ⟨h1, h2, fun j s a b c => by have := h3 j s a b c; tauto⟩
  · rintro ⟨h1, h2, h3⟩
    exact ⟨h1, h2, fun j s a b c => by have := h3 j s a b c; tauto⟩

theorem Trace.kind (tr : Trace steps off oT cT bo bc carry S) {k : Nat} (hk : k < steps.length) :
    ∃ s, steps[k]? = some s ∧ (IsMeasure s ∨ IsAdv s ∨ IsDo s ∨ IsLoop s) :=
  ⟨steps[k], List.getElem?_eq_getElem hk, tr.kinds _ (List.getElem_mem hk)⟩

structure Known (steps : List Step) (off : Nat) (carry : Int) (k : Nat) (st : RState) : Prop where
  opened : ∀ o, st.opened = some o → OpenAt steps o k
  prev : ∀ m, st.prevMeas = some m → ∃ j : Nat, m = (j : Int) + off + 1 ∧ LastMeasure steps k j
  noPrev : st.prevMeas = none → (∀ (i : Nat) s, i < k → steps[i]? = some s → ¬ IsMeasure s) ∧ st.onStart = carry
  adv : 0 ≤ st.adv
  /-- advances are pending only behind an `AdvCycle` or a closed loop -/
  recent : ∀ i : Nat, k = i + 1 → ∀ s, steps[i]? = some s → IsMeasure s → st.adv = 0

theorem lastMeasure_succ {k j : Nat} {s : Step} (h : LastMeasure steps k j) (hs : steps[k]? = some s)
    (hn : ¬ IsMeasure s) : LastMeasure steps (k + 1) j := by
  obtain ⟨h1, h2, h3⟩ := h
  refine ⟨by omega, h2, ?_⟩
  intro i s' hi hk hs'
  by_cases hik : i = k
  · subst hik; rw [hs] at hs'; cases hs'; exact hn
  · exact h3 i s' hi (by omega) hs'

theorem noMeasure_succ {k : Nat} {s : Step} (h : ∀ (i : Nat) s, i < k → steps[i]? = some s → ¬ IsMeasure s)
    (hs : steps[k]? = some s) (hn : ¬ IsMeasure s) :
    ∀ (i : Nat) s, i < k + 1 → steps[i]? = some s → ¬ IsMeasure s := by
  intro i s' hk hs'
  by_cases hik : i = k
  · subst hik; rw [hs] at hs'; cases hs'; exact hn
  · exact h i s' (by omega) hs'

theorem openAt_keep {o k : Nat} {s : Step} (h : OpenAt steps o k) (hs : steps[k]? = some s)
    (h1 : ¬ IsDo s) (h2 : ¬ IsLoop s) : OpenAt steps o (k + 1) := by
  rw [openAt_iff] at h ⊢
  refine ⟨by omega, h.2.1, ?_⟩
  intro j s' hj hk hs'
  by_cases hjk : j = k
  · subst hjk; rw [hs] at hs'; cases hs'; exact ⟨h1, h2⟩
  · exact h.2.2 j s' hj (by omega) hs'

theorem Trace.known (tr : Trace steps off oT cT bo bc carry S) (k : Nat) (hk : k ≤ steps.length) :
    Known steps off carry k (S k) := by
  induction k with
  | zero =>
    rw [tr.zero]
    exact ⟨(by intro o h; cases h), (by intro m h; cases h), fun _ => ⟨(by intro i s h; omega), rfl⟩, le_refl _,
      (by intro i h; omega)⟩
  | succ k ih =>
    have ih := ih (by omega)
    obtain ⟨s, hs, hkind⟩ := tr.kind (k := k) (by omega)
    have hpred : ∀ i : Nat, k + 1 = i + 1 → ∀ s', steps[i]? = some s' → ¬ IsMeasure s → IsMeasure s' → False := by
      intro i hi s' hs' hn hm
      have : i = k := by omega
      subst this
      rw [hs] at hs'
      cases hs'
      exact hn hm
    rcases hkind with hm | ha | hd | hl
    · obtain ⟨e1, e2, e3⟩ := tr.measure' hs hm
      refine ⟨?_, ?_, ?_, by omega, fun _ _ _ _ _ => e1⟩
      · intro o ho
        rw [e2] at ho
        exact openAt_keep (ih.opened o ho) hs (fun h => measure_not_do hm h) (fun h => measure_not_loop hm h)
      · intro m hmm
        rw [e3] at hmm
        cases hmm
        exact ⟨k, rfl, by omega, ⟨s, hs, hm⟩, by intro i s' h1 h2; omega⟩
      · intro h
        rw [e3] at h
        cases h
    · have hn : ¬ IsMeasure s := fun h => measure_not_adv h ha
      rw [tr.adv hs ha]
      refine ⟨?_, ?_, ?_, ?_, ?_⟩
      · intro o ho
        exact openAt_keep (ih.opened o ho) hs (fun h => adv_not_do ha h) (fun h => adv_not_loop ha h)
      · intro m hm
        obtain ⟨j, hj, hl⟩ := ih.prev m hm
        exact ⟨j, hj, lastMeasure_succ hl hs hn⟩
      · intro h
        exact ⟨noMeasure_succ (ih.noPrev h).1 hs hn, (ih.noPrev h).2⟩
      · show 0 ≤ (S k).adv + 1
        have := ih.adv
        omega
      · intro i hi s' hs' hm
        exact (hpred i hi s' hs' hn hm).elim
    · have hn : ¬ IsMeasure s := fun h => measure_not_do h hd
      rw [(tr.enter hs hd).2]
      refine ⟨?_, ?_, ?_, ih.adv, ?_⟩
      · intro o ho
        cases ho
        rw [openAt_iff]
        exact ⟨by omega, ⟨s, hs, hd⟩, by intro j s' h1 h2; omega⟩
      · intro m hm
        obtain ⟨j, hj, hl⟩ := ih.prev m hm
        exact ⟨j, hj, lastMeasure_succ hl hs hn⟩
      · intro h
        exact ⟨noMeasure_succ (ih.noPrev h).1 hs hn, (ih.noPrev h).2⟩
      · intro i hi s' hs' hm
        exact (hpred i hi s' hs' hn hm).elim
    · have hn : ¬ IsMeasure s := fun h => measure_not_loop h hl
      obtain ⟨o, _, e1, e2, e3, e4, _⟩ := tr.close hs hl
      refine ⟨?_, ?_, ?_, ?_, ?_⟩
      · intro o ho
        rw [e1] at ho
        cases ho
      · intro m hm
        rw [e3] at hm
        obtain ⟨j, hj, hl⟩ := ih.prev m hm
        exact ⟨j, hj, lastMeasure_succ hl hs hn⟩
      · intro h
        rw [e3] at h
        rw [e4]
        exact ⟨noMeasure_succ (ih.noPrev h).1 hs hn, (ih.noPrev h).2⟩
      · rw [e2]; exact ih.adv
      · intro i hi s' hs' hm
        exact (hpred i hi s' hs' hn hm).elim

/-- at a loop end the last measurement is in the body -/
theorem Trace.inBody (tr : Trace steps off oT cT bo bc carry S) {k o : Nat} (hk : k ≤ steps.length)
    {l : Step} (hl : steps[k]? = some l) (hll : IsLoop l) (ho : (S k).opened = some o) :
    ∃ j : Nat, (S k).prevMeas = some ((j : Int) + off + 1) ∧ LastMeasure steps k j ∧ o < j := by
  have kn := tr.known k hk
  have hop := (openAt_iff o k steps).mp (kn.opened o ho)
  obtain ⟨d, hd, hdd⟩ := hop.2.1
  obtain ⟨b, hb, hbm⟩ := tr.body o d hd hdd
  have hlt : o + 1 < k := by
    rcases Nat.lt_or_ge (o + 1) k with h | h
    · exact h
    · have : o + 1 = k := by omega
      subst this
      rw [hl] at hb
      cases hb
      exact (measure_not_loop hbm hll).elim
  cases hp : (S k).prevMeas with
  | none => exact absurd hbm ((kn.noPrev hp).1 (o + 1) b hlt hb)
  | some m =>
    obtain ⟨j, rfl, hj⟩ := kn.prev m hp
    refine ⟨j, rfl, hj, ?_⟩
    by_contra hh
    exact hj.2.2 (o + 1) b (by omega) hlt hb hbm

/-! ### the transitions -/

/-- a place where the generator may record a transition from step number `a` to `b` -/
def Slot (steps : List Step) (off : Nat) (S : Nat → RState) (i : Nat) (a b : Int) : Prop :=
  i < steps.length ∧ (S i).prevMeas = some a ∧
  ((∃ s, steps[i]? = some s ∧ IsMeasure s ∧ b = (i : Int) + off + 1) ∨
   (∃ s o, steps[i]? = some s ∧ IsLoop s ∧ (S i).opened = some o ∧ b = (o : Int) + off + 1))

/-- the target of a slot determines the slot -/
theorem Trace.slot_target (tr : Trace steps off oT cT bo bc carry S) {i i' : Nat} {a a' b : Int}
    (h : Slot steps off S i a b) (h' : Slot steps off S i' a' b) : i = i' := by
  obtain ⟨hi, _, h⟩ := h
  obtain ⟨hi', _, h'⟩ := h'
  rcases h with ⟨s, hs, hm, hb⟩ | ⟨s, o, hs, hl, ho, hb⟩ <;>
    rcases h' with ⟨s', hs', hm', hb'⟩ | ⟨s', o', hs', hl', ho', hb'⟩
  · omega
  · have := ((openAt_iff _ _ _).mp ((tr.known i' (by omega)).opened o' ho')).2.1
    obtain ⟨d, hd, hdd⟩ := this
    have : i = o' := by omega
    subst this
    rw [hs] at hd; cases hd
    exact (measure_not_do hm hdd).elim
  · have := ((openAt_iff _ _ _).mp ((tr.known i (by omega)).opened o ho)).2.1
    obtain ⟨d, hd, hdd⟩ := this
    have : i' = o := by omega
    subst this
    rw [hs'] at hd; cases hd
    exact (measure_not_do hm' hdd).elim
  · have : o = o' := by omega
    subst this
    have k1 := (openAt_iff _ _ _).mp ((tr.known i (by omega)).opened o ho)
    have k2 := (openAt_iff _ _ _).mp ((tr.known i' (by omega)).opened o ho')
    rcases Nat.lt_trichotomy i i' with hlt | heq | hgt
    · exact absurd hl (k2.2.2 i s k1.1 hlt hs).2
    · exact heq
    · exact absurd hl' (k1.2.2 i' s' k2.1 hgt hs').2

/-- the transitions recorded before position `k` -/
theorem Trace.trans_iff (tr : Trace steps off oT cT bo bc carry S) (k : Nat) (hk : k ≤ steps.length) (a b n : Int) :
    (S k).trans.get? (a, b) = some n ↔ ∃ i : Nat, i < k ∧ Slot steps off S i a b ∧ (S i).adv = n ∧ 0 < n := by
  induction k generalizing a b n with
  | zero =>
    rw [tr.zero]
    constructor
    · intro h; cases h
    · rintro ⟨i, hi, _⟩; omega
  | succ k ih =>
    have ih := fun a b n => ih (by omega) a b n
    obtain ⟨s, hs, hkind⟩ := tr.kind (k := k) (by omega)
    -- a step that records nothing
    have quiet : (S (k + 1)).trans = (S k).trans → (∀ a b, Slot steps off S k a b → ¬ 0 < (S k).adv) →
        ((S (k + 1)).trans.get? (a, b) = some n ↔
          ∃ i : Nat, i < k + 1 ∧ Slot steps off S i a b ∧ (S i).adv = n ∧ 0 < n) := by
      intro e hq
      rw [e, ih]
      constructor
      · rintro ⟨i, hi, h⟩; exact ⟨i, by omega, h⟩
      · rintro ⟨i, hi, h1, h2, h3⟩
        refine ⟨i, ?_, h1, h2, h3⟩
        by_contra hh
        have : i = k := by omega
        subst this
        exact hq a b h1 (by omega)
    -- a step that records a transition
    have record : ∀ m t : Int, Slot steps off S k m t → 0 < (S k).adv →
        (S (k + 1)).trans = (S k).trans.set (m, t) (S k).adv →
        ((S (k + 1)).trans.get? (a, b) = some n ↔
          ∃ i : Nat, i < k + 1 ∧ Slot steps off S i a b ∧ (S i).adv = n ∧ 0 < n) := by
      intro m t hslot hpos e
      rw [e]
      by_cases hc : (a, b) = (m, t)
      · cases hc
        rw [Dict.get?_set_self]
        constructor
        · intro h
          cases h
          exact ⟨k, by omega, hslot, rfl, hpos⟩
        · rintro ⟨i, hi, h1, h2, h3⟩
          have := tr.slot_target h1 hslot
          subst this
          rw [h2]
      · rw [Dict.get?_set_ne _ _ hc, ih]
        constructor
        · rintro ⟨i, hi, h⟩; exact ⟨i, by omega, h⟩
        · rintro ⟨i, hi, h1, h2, h3⟩
          refine ⟨i, ?_, h1, h2, h3⟩
          by_contra hh
          have : i = k := by omega
          subst this
          apply hc
          obtain ⟨_, p1, q1⟩ := h1
          obtain ⟨_, p2, q2⟩ := hslot
          rw [p1] at p2
          cases p2
          rcases q1 with ⟨s1, e1, m1, b1⟩ | ⟨s1, o1, e1, l1, oo1, b1⟩ <;>
            rcases q2 with ⟨s2, e2, m2, b2⟩ | ⟨s2, o2, e2, l2, oo2, b2⟩
          · rw [b1, b2]
          · rw [e1] at e2; cases e2; exact (measure_not_loop m1 l2).elim
          · rw [e1] at e2; cases e2; exact (measure_not_loop m2 l1).elim
          · rw [oo1] at oo2; cases oo2; rw [b1, b2]
    have notSlot : ¬ IsMeasure s → ¬ IsLoop s → ∀ a b, ¬ Slot steps off S k a b := by
      rintro h1 h2 a b ⟨_, _, ⟨s', e, m, _⟩ | ⟨s', o, e, l, _⟩⟩
      · rw [hs] at e; cases e; exact h1 m
      · rw [hs] at e; cases e; exact h2 l
    rcases hkind with hm | ha | hd | hl
    · rcases tr.measure hs hm with ⟨hp, e⟩ | ⟨m, hp, hpos, e⟩ | ⟨m, hp, hpos, e⟩
      · apply quiet (by rw [e])
        rintro a b ⟨_, h, _⟩
        rw [hp] at h; cases h
      · exact record m _ ⟨by omega, hp, Or.inl ⟨s, hs, hm, rfl⟩⟩ hpos (by rw [e])
      · exact quiet (by rw [e]) (fun _ _ _ => hpos)
    · apply quiet (by rw [tr.adv hs ha])
      intro a b h
      exact (notSlot (fun h => measure_not_adv h ha) (fun h => adv_not_loop ha h) a b h).elim
    · apply quiet (by rw [(tr.enter hs hd).2])
      intro a b h
      exact (notSlot (fun h => measure_not_do h hd) (fun h => do_not_loop hd h) a b h).elim
    · obtain ⟨o, ho, e1, e2, e3, e4, e5⟩ := tr.close hs hl
      rcases e5 with ⟨hpos, m, hp, e⟩ | ⟨hpos, e⟩
      · have hop := (openAt_iff _ _ _).mp ((tr.known k (by omega)).opened o ho)
        obtain ⟨d, hd, hdd⟩ := hop.2.1
        refine record m _ ⟨by omega, hp, Or.inr ⟨s, o, hs, hl, ho, rfl⟩⟩ hpos (e hop.1 ?_ ⟨d, hd⟩ ?_)
        · intro d' hd'; rw [hd] at hd'; cases hd'; exact hdd
        · obtain ⟨j, hj, hlm⟩ := (tr.known k (by omega)).prev m hp
          intro hh
          obtain ⟨s', hs', hm'⟩ := hlm.2.1
          have : j = o := by omega
          subst this
          rw [hd] at hs'; cases hs'
          exact measure_not_do hm' hdd
      · exact quiet e (fun _ _ _ => hpos)

theorem Trace.trans_wf (tr : Trace steps off oT cT bo bc carry S) (k : Nat) (hk : k ≤ steps.length) :
    (S k).trans.WF := by
  induction k with
  | zero => rw [tr.zero]; exact List.nodup_nil
  | succ k ih =>
    have ih := ih (by omega)
    obtain ⟨s, hs, hkind⟩ := tr.kind (k := k) (by omega)
    have hst := tr.step k s hs
    rcases hkind with hm | ha | hd | hl
    · rcases tr.measure hs hm with ⟨hp, e⟩ | ⟨m, hp, hpos, e⟩ | ⟨m, hp, hpos, e⟩ <;> rw [e]
      · exact ih
      · exact Dict.WF_set ih _ _
      · exact ih
    · rw [tr.adv hs ha]; exact ih
    · rw [(tr.enter hs hd).2]; exact ih
    · obtain ⟨o, ho, e1, e2, e3, e4, e5⟩ := tr.close hs hl
      rcases e5 with ⟨hpos, m, hp, e⟩ | ⟨hpos, e⟩
      · have hop := (openAt_iff _ _ _).mp ((tr.known k (by omega)).opened o ho)
        obtain ⟨d, hd, hdd⟩ := hop.2.1
        rw [e hop.1 (by intro d' hd'; rw [hd] at hd'; cases hd'; exact hdd) ⟨d, hd⟩ ?_]
        · exact Dict.WF_set ih _ _
        · obtain ⟨j, hj, hlm⟩ := (tr.known k (by omega)).prev m hp
          intro hh
          obtain ⟨s', hs', hm'⟩ := hlm.2.1
          have : j = o := by omega
          subst this
          rw [hd] at hs'; cases hs'
          exact measure_not_do hm' hdd
      · rw [e]; exact ih

/-! ### sequence numbers -/

theorem lookup_exact {all : List Numbered} (hall : numberSteps ((off : Int) + 1) 0 steps = .ok all) {j : Nat} {s : Step}
    (hs : steps[j]? = some s) :
    seqNumsByStep all ((j : Int) + off + 1) = some (seqNumsOf (firstSeq steps j) (seqCount s)) := by
  obtain ⟨hl, hx⟩ := number_spec _ _ _ _ hall
  have hj := (List.getElem?_eq_some_iff.mp hs).1
  have hx0 : all[j]? = some all[j] := List.getElem?_eq_getElem (by omega)
  obtain ⟨e1, e2, e3, _⟩ := hx j _ hx0
  have hf : all.find? (fun x => x.num == (j : Int) + off + 1) = some all[j] := by
    rw [List.find?_eq_some_iff_getElem]
    refine ⟨by rw [e2]; simp; ring, j, by omega, rfl, ?_⟩
    intro k hk
    have hk0 : all[k]? = some all[k] := List.getElem?_eq_getElem (by omega)
    obtain ⟨_, f2, _⟩ := hx k _ hk0
    rw [f2]
    simp
    omega
  unfold seqNumsByStep
  rw [hf]
  rw [hs] at e1
  cases e1
  simp only [Option.map_some, e3, Int.zero_add]

theorem seqNumsOf_last (q : Int) (n : Nat) (h : 1 ≤ n) : (seqNumsOf q n).getLast? = some (q + n - 1) := by
  unfold seqNumsOf
  rw [if_neg (by omega)]
  obtain ⟨m, rfl⟩ := Nat.exists_eq_succ_of_ne_zero (show n ≠ 0 by omega)
  rw [List.range_succ]
  simp
  ring

/-- the last sequence of the measurement at position `j` -/
def lastSeqOf (steps : List Step) (j : Nat) : Int := (firstSeq steps (j + 1) : Int) - 1

theorem measure_last {all : List Numbered} (hall : numberSteps ((off : Int) + 1) 0 steps = .ok all) {j : Nat} {s : Step}
    (hs : steps[j]? = some s) (hm : IsMeasure s) :
    (seqNumsByStep all ((j : Int) + off + 1)).bind List.getLast? = some (lastSeqOf steps j) := by
  rw [lookup_exact hall hs]
  show (seqNumsOf _ _).getLast? = _
  rw [seqNumsOf_last _ _ (seqCount_pos hm), lastSeqOf, firstSeq_succ steps j s hs]
  push_cast
  rfl

theorem any_first {all : List Numbered} (hall : numberSteps ((off : Int) + 1) 0 steps = .ok all) {j : Nat} {s : Step}
    (hs : steps[j]? = some s) :
    (seqNumsByStep all ((j : Int) + off + 1)).bind List.head? = some (firstSeq steps j : Int) := by
  rw [lookup_exact hall hs]
  exact seqNumsOf_head _ _

/-- the sequences of a transition between step numbers -/
def img (all : List Numbered) (p : Int × Int) : Option (Int × Int) :=
  match (seqNumsByStep all p.1).bind List.getLast?, (seqNumsByStep all p.2).bind List.head? with
  | some x, some y => some (x, y)
  | _, _ => none

theorem toSeq_spec (all : List Numbered) (T : Dict (Int × Int) Int) (hT : T.WF) (acc D : Dict (Int × Int) Int)
    (hinj : ∀ p ∈ T, ∀ q ∈ T, img all p.1 = img all q.1 → p = q)
    (h : toSeqTransitions (seqNumsByStep all) T acc = .ok D) :
    (∀ p ∈ T, ∀ k, img all p.1 = some k → D.get? k = some p.2) ∧
    (∀ k, (∀ p ∈ T, img all p.1 ≠ some k) → D.get? k = acc.get? k) := by
  induction T generalizing acc with
  | nil =>
    rw [toSeqTransitions] at h
    cases h
    exact ⟨by intro p hp; simp at hp, fun k _ => rfl⟩
  | cons e T ih =>
    obtain ⟨⟨a, b⟩, n⟩ := e
    rw [toSeqTransitions] at h
    have hwf : (a, b) ∉ T.map Prod.fst ∧ (T.map Prod.fst).Nodup := by
      unfold Dict.WF Dict.keys at hT
      simpa using hT
    split at h
    · rename_i x y hx hy
      have himg : img all (a, b) = some (x, y) := by
        unfold img
        simp only [hx, hy]
      obtain ⟨i1, i2⟩ := ih hwf.2 (acc.set (x, y) n)
        (fun p hp q hq => hinj p (List.mem_cons_of_mem _ hp) q (List.mem_cons_of_mem _ hq)) h
      have hnone : ∀ p ∈ T, img all p.1 ≠ some (x, y) := by
        intro p hp hh
        have := hinj p (List.mem_cons_of_mem _ hp) ((a, b), n) (List.mem_cons_self ..) (by rw [hh, himg])
        subst this
        exact hwf.1 (List.mem_map_of_mem hp)
      constructor
      · intro p hp k hk
        rcases List.mem_cons.mp hp with rfl | hp
        · rw [himg] at hk
          cases hk
          rw [i2 _ hnone, Dict.get?_set_self]
        · exact i1 p hp k hk
      · intro k hk
        rw [i2 k (fun p hp => hk p (List.mem_cons_of_mem _ hp)), Dict.get?_set_ne]
        rintro rfl
        exact hk _ (List.mem_cons_self ..) himg
    · cases h

theorem firstSeq_lt {i j : Nat} {s : Step} (hs : steps[i]? = some s) (hm : IsMeasure s) (h : i < j) :
    firstSeq steps i + 1 ≤ firstSeq steps j := by
  have h1 := firstSeq_succ steps i s hs
  have h2 := seqCount_pos hm
  have h3 := firstSeq_mono steps (i + 1) j h
  omega

theorem lastSeqOf_inj {i j : Nat} {s s' : Step} (hs : steps[i]? = some s) (hm : IsMeasure s)
    (hs' : steps[j]? = some s') (hm' : IsMeasure s') (h : lastSeqOf steps i = lastSeqOf steps j) : i = j := by
  unfold lastSeqOf at h
  have h1 := firstSeq_succ steps i s hs
  have h2 := seqCount_pos hm
  have h3 := firstSeq_succ steps j s' hs'
  have h4 := seqCount_pos hm'
  rcases Nat.lt_trichotomy i j with hlt | heq | hgt
  · have := firstSeq_mono steps (i + 1) j hlt
    omega
  · exact heq
  · have := firstSeq_mono steps (j + 1) i hgt
    omega

/-- the source and the target positions of a slot -/
theorem Trace.slot_img (tr : Trace steps off oT cT bo bc carry S) {all : List Numbered}
    (hall : numberSteps ((off : Int) + 1) 0 steps = .ok all) {i : Nat} {a b : Int} (h : Slot steps off S i a b) :
    ∃ j t : Nat, LastMeasure steps i j ∧ (S i).prevMeas = some ((j : Int) + off + 1) ∧
      img all (a, b) = some (lastSeqOf steps j, (firstSeq steps t : Int)) ∧
      ((t = i ∧ ∃ s, steps[i]? = some s ∧ IsMeasure s) ∨
       (t < j ∧ (S i).opened = some t ∧ ∃ s, steps[i]? = some s ∧ IsLoop s)) := by
  obtain ⟨hi, hp, h⟩ := h
  obtain ⟨j, rfl, hj⟩ := (tr.known i (by omega)).prev a hp
  obtain ⟨sj, hsj, hmj⟩ := hj.2.1
  rcases h with ⟨s, hs, hm, rfl⟩ | ⟨s, o, hs, hl, ho, rfl⟩
  · refine ⟨j, i, hj, hp, ?_, Or.inl ⟨rfl, s, hs, hm⟩⟩
    unfold img
    simp only [measure_last hall hsj hmj, any_first hall hs]
  · obtain ⟨d, hd, hdd⟩ := ((openAt_iff _ _ _).mp ((tr.known i (by omega)).opened o ho)).2.1
    obtain ⟨j', hp', _, hlt⟩ := tr.inBody (by omega) hs hl ho
    rw [hp] at hp'
    have hjj : j = j' := by
      have := Option.some.inj hp'
      omega
    subst hjj
    refine ⟨j, o, hj, hp, ?_, Or.inr ⟨hlt, ho, s, hs, hl⟩⟩
    unfold img
    simp only [measure_last hall hsj hmj, any_first hall hd]

/-- slots with the same sequences are the same slot -/
theorem Trace.slot_inj (tr : Trace steps off oT cT bo bc carry S) {all : List Numbered}
    (hall : numberSteps ((off : Int) + 1) 0 steps = .ok all) {i i' : Nat} {a b a' b' : Int}
    (h : Slot steps off S i a b) (h' : Slot steps off S i' a' b') (he : img all (a, b) = img all (a', b')) :
    i = i' := by
  obtain ⟨j, t, hj, hp, hi, hc⟩ := tr.slot_img hall h
  obtain ⟨j', t', hj', hp', hi', hc'⟩ := tr.slot_img hall h'
  rw [hi, hi'] at he
  simp only [Option.some.injEq, Prod.mk.injEq] at he
  obtain ⟨sj, hsj, hmj⟩ := hj.2.1
  obtain ⟨sj', hsj', hmj'⟩ := hj'.2.1
  have hjj := lastSeqOf_inj hsj hmj hsj' hmj' he.1
  subst hjj
  have ht : firstSeq steps t = firstSeq steps t' := by exact_mod_cast he.2
  have mixed : ∀ (x y : Nat) (sx : Step), steps[x]? = some sx → IsMeasure sx → j < x → y < j →
      firstSeq steps x = firstSeq steps y → False := by
    intro x y sx hx hm h1 h2 h3
    have := firstSeq_lt hsj hmj h1
    have := firstSeq_mono steps y j (by omega)
    omega
  rcases hc with ⟨rfl, s, hs, hm⟩ | ⟨hlt, ho, s, hs, hl⟩ <;>
    rcases hc' with ⟨rfl, s', hs', hm'⟩ | ⟨hlt', ho', s', hs', hl'⟩
  · rcases Nat.lt_trichotomy t t' with hh | hh | hh
    · have := firstSeq_lt hs hm hh; omega
    · exact hh
    · have := firstSeq_lt hs' hm' hh; omega
  · exact (mixed t t' s hs hm hj.1 hlt' ht).elim
  · exact (mixed t' t s' hs' hm' hj'.1 hlt ht.symm).elim
  · obtain ⟨d, hd, hdd⟩ := ((openAt_iff _ _ _).mp ((tr.known i (by have := h.1; omega)).opened t ho)).2.1
    obtain ⟨d', hd', hdd'⟩ := ((openAt_iff _ _ _).mp ((tr.known i' (by have := h'.1; omega)).opened t' ho')).2.1
    obtain ⟨b1, hb1, hbm1⟩ := tr.body t d hd hdd
    obtain ⟨b2, hb2, hbm2⟩ := tr.body t' d' hd' hdd'
    have aux : ∀ (x y : Nat) (dx dy bx : Step), steps[x]? = some dx → IsDo dx → steps[y]? = some dy → IsDo dy →
        steps[x + 1]? = some bx → IsMeasure bx → firstSeq steps x = firstSeq steps y → x < y → False := by
      intro x y dx dy bx hx hdx hy hdy hbx hmx he hlt
      have hne : x + 1 ≠ y := by
        rintro rfl
        rw [hbx] at hy; cases hy
        exact measure_not_do hmx hdy
      have := firstSeq_lt hbx hmx (show x + 1 < y by omega)
      have := firstSeq_mono steps x (x + 1) (by omega)
      omega
    have htt : t = t' := by
      rcases Nat.lt_trichotomy t t' with hh | hh | hh
      · exact (aux t t' d d' b1 hd hdd hd' hdd' hb1 hbm1 ht hh).elim
      · exact hh
      · exact (aux t' t d' d b2 hd' hdd' hd hdd hb2 hbm2 ht.symm hh).elim
    subst htt
    refine tr.slot_target (a := a) (a' := a') (b := (t : Int) + off + 1) ⟨h.1, h.2.1, Or.inr ⟨s, t, hs, hl, ho, rfl⟩⟩
      ⟨h'.1, h'.2.1, Or.inr ⟨s', t, hs', hl', ho', rfl⟩⟩

/-- The sequence transitions of the generated rules. -/
theorem Trace.seq_get (tr : Trace steps off oT cT bo bc carry S) {all : List Numbered}
    (hall : numberSteps ((off : Int) + 1) 0 steps = .ok all) {D : Dict (Int × Int) Int}
    (hD : toSeqTransitions (seqNumsByStep all) (S steps.length).trans [] = .ok D) (k : Int × Int) :
    (∀ i a b, Slot steps off S i a b → img all (a, b) = some k → (D.get? k).getD 0 = (S i).adv) ∧
    ((∀ i a b, Slot steps off S i a b → img all (a, b) ≠ some k) → D.get? k = none) := by
  have hwf := tr.trans_wf steps.length (le_refl _)
  have hmem : ∀ p, p ∈ (S steps.length).trans → ∃ i : Nat, Slot steps off S i p.1.1 p.1.2 ∧ (S i).adv = p.2 := by
    intro p hp
    have := (tr.trans_iff steps.length (le_refl _) p.1.1 p.1.2 p.2).mp (Dict.get?_of_mem hwf hp)
    obtain ⟨i, _, h1, h2, _⟩ := this
    exact ⟨i, h1, h2⟩
  have hinj : ∀ p ∈ (S steps.length).trans, ∀ q ∈ (S steps.length).trans, img all p.1 = img all q.1 → p = q := by
    intro p hp q hq he
    obtain ⟨i, h1, h2⟩ := hmem p hp
    obtain ⟨i', h1', h2'⟩ := hmem q hq
    have := tr.slot_inj hall h1 h1' he
    subst this
    obtain ⟨_, p1, q1⟩ := h1
    obtain ⟨_, p2, q2⟩ := h1'
    rw [p1] at p2
    have e1 := Option.some.inj p2
    have e2 : p.1.2 = q.1.2 := by
      rcases q1 with ⟨s1, e1, m1, b1⟩ | ⟨s1, o1, e1, l1, oo1, b1⟩ <;>
        rcases q2 with ⟨s2, e2, m2, b2⟩ | ⟨s2, o2, e2, l2, oo2, b2⟩
      · rw [b1, b2]
      · rw [e1] at e2; cases e2; exact (measure_not_loop m1 l2).elim
      · rw [e1] at e2; cases e2; exact (measure_not_loop m2 l1).elim
      · rw [oo1] at oo2; cases oo2; rw [b1, b2]
    exact Prod.ext (Prod.ext e1 e2) (by rw [← h2, ← h2'])
  obtain ⟨g1, g2⟩ := toSeq_spec all _ hwf [] D hinj hD
  constructor
  · intro i a b hslot himg
    by_cases hpos : 0 < (S i).adv
    · have := (tr.trans_iff steps.length (le_refl _) a b (S i).adv).mpr ⟨i, hslot.1, hslot, rfl, hpos⟩
      rw [g1 ((a, b), (S i).adv) (Dict.get?_some_mem this) k himg]
      rfl
    · have h0 : (S i).adv = 0 := by
        have := (tr.known i (by have := hslot.1; omega)).adv
        omega
      rw [h0, g2]
      · rfl
      · intro p hp hh
        obtain ⟨i', h1, h2⟩ := hmem p hp
        have := tr.slot_inj hall hslot h1 (by rw [himg, hh])
        subst this
        have := (tr.trans_iff steps.length (le_refl _) p.1.1 p.1.2 p.2).mp (Dict.get?_of_mem hwf hp)
        obtain ⟨_, _, _, _, hpos'⟩ := this
        omega
  · intro hno
    rw [g2]
    · rfl
    · intro p hp
      obtain ⟨i, h1, _⟩ := hmem p hp
      exact hno i _ _ h1

end
end Beep.Proof.CycleCount
