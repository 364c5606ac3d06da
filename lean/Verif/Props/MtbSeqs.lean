import Verif.Props.MtbPartition
/-
C25: sequence numbers are consecutive and jumps land on the right step.
-/
namespace Beep.Props.MtbSeqs
open Beep Beep.MtB Beep.Spec.MtB Beep.Props.MtbPartition

theorem isOpen_iff (t : String) : isOpen t = true ↔ t = "Do 1" ∨ t = "Do 2" := by simp [isOpen]
theorem isClose_iff (t : String) : isClose t = true ↔ t = "Loop 1" ∨ t = "Loop 2" := by simp [isClose]

/-- the parts of a step -/
theorem splitStep_cases (s : Step) (num : Int) (ps : List Step) (h : splitStep s num = .ok ps) :
    (s.limits = none ∧ ps = [s]) ∨
    (s.limits ≠ none ∧ ∃ p1 p2 e, ps = [p1, p2] ∧ p1.ends = .single e ∧ e.step = num + 1 ∧ p2.ends = s.ends) := by
  unfold splitStep at h
  split at h
  · rename_i hl
    cases h
    exact Or.inl ⟨hl, rfl⟩
  · rename_i lims hl
    refine Or.inr ⟨by rw [hl]; simp, ?_⟩
    split at h
    · simp only at h
      split at h
      · cases h
      · split at h
        · cases h; exact ⟨_, _, _, rfl, rfl, rfl, rfl⟩
        · split at h
          · cases h; exact ⟨_, _, _, rfl, rfl, rfl, rfl⟩
          · cases h
    · cases h

theorem partsOf_length (s : Step) (num : Int) (ps : List Step) (h : partsOf s num = .ok ps) :
    ps.length = seqCount s := by
  unfold partsOf at h
  unfold seqCount
  by_cases h1 : (isOpen s.stepType || s.stepType == "AdvCycle") = true
  · rw [if_pos h1] at h
    cases h
    rw [if_pos]
    · rfl
    · rw [Bool.or_eq_true, isOpen_iff, beq_iff_eq] at h1; tauto
  · rw [if_neg h1] at h
    rw [Bool.or_eq_true, isOpen_iff, beq_iff_eq] at h1
    rw [if_neg (by tauto)]
    by_cases h2 : isClose s.stepType = true
    · rw [if_pos h2] at h
      cases h
      rw [if_pos ((isClose_iff _).mp h2)]
      rfl
    · rw [if_neg h2] at h
      rw [if_neg (fun hh => h2 ((isClose_iff _).mpr hh))]
      rcases splitStep_cases s num ps h with ⟨a, b⟩ | ⟨a, p1, p2, e, b, _⟩
      · rw [if_pos a, b]; rfl
      · rw [if_neg a, b]; rfl

theorem firstSeq_zero (steps : List Step) : firstSeq steps 0 = 0 := rfl

theorem firstSeq_succ (steps : List Step) (k : Nat) (s : Step) (h : steps[k]? = some s) :
    firstSeq steps (k + 1) = firstSeq steps k + seqCount s := by
  unfold firstSeq
  rw [List.take_succ, h]
  simp

theorem firstSeq_cons (s : Step) (ss : List Step) (k : Nat) :
    firstSeq (s :: ss) (k + 1) = seqCount s + firstSeq ss k := by
  unfold firstSeq; simp

theorem firstSeq_mono (steps : List Step) (j k : Nat) (h : j ≤ k) : firstSeq steps j ≤ firstSeq steps k := by
  unfold firstSeq
  obtain ⟨d, rfl⟩ := Nat.exists_eq_add_of_le h
  rw [List.take_add, List.map_append, List.sum_append]
  omega

/-- first pass -/
theorem number_spec (ss : List Step) (num q : Int) (xs : List Numbered) (h : numberSteps num q ss = .ok xs) :
    xs.length = ss.length ∧ ∀ (k : Nat) x, xs[k]? = some x → ss[k]? = some x.step ∧ x.num = num + k ∧
      x.seqs = seqNumsOf (q + firstSeq ss k) (seqCount x.step) ∧ partsOf x.step x.num = .ok x.parts := by
  induction ss generalizing num q xs with
  | nil => cases h; exact ⟨rfl, by intro k x hx; simp at hx⟩
  | cons s ss ih =>
    rw [numberSteps] at h
    simp only [bind, Except.bind] at h
    split at h
    · cases h
    rename_i parts hp
    split at h
    · cases h
    rename_i rest hrest
    cases h
    obtain ⟨h1, h2⟩ := ih _ _ _ hrest
    refine ⟨by simp [h1], ?_⟩
    intro k x hx
    have hlen := partsOf_length s num parts hp
    cases k with
    | zero =>
      simp only [List.getElem?_cons_zero, Option.some.injEq] at hx
      subst hx
      refine ⟨by simp, by simp, ?_, hp⟩
      simp only [firstSeq_zero, hlen]
      simp
    | succ k =>
      rw [List.getElem?_cons_succ] at hx
      obtain ⟨a, b, c, d⟩ := h2 k x hx
      refine ⟨by rw [List.getElem?_cons_succ]; exact a, by rw [b]; push_cast; ring, ?_, d⟩
      rw [c, firstSeq_cons, hlen]
      congr 1
      push_cast
      ring

theorem seqNumsOf_head (q : Int) (n : Nat) : (seqNumsOf q n).head? = some q := by
  unfold seqNumsOf
  split
  · rfl
  · rename_i h
    obtain ⟨m, rfl⟩ := Nat.exists_eq_succ_of_ne_zero h
    rw [List.range_succ_eq_map]; simp

/-- the look up of a step's sequences -/
theorem lookup_spec (steps : List Step) (off : Int) (all : List Numbered)
    (hall : numberSteps (off + 1) 0 steps = .ok all) (n : Int) (qs : List Int)
    (h : seqNumsByStep all n = some qs) :
    ∃ j : Nat, j < steps.length ∧ n = off + j + 1 ∧ qs.head? = some (firstSeq steps j : Int) := by
  obtain ⟨hl, hx⟩ := number_spec _ _ _ _ hall
  unfold seqNumsByStep at h
  obtain ⟨x, hf, rfl⟩ := Option.map_eq_some_iff.mp h
  have hm := List.mem_of_find?_eq_some hf
  have hp := List.find?_some hf
  obtain ⟨k, hk⟩ := List.mem_iff_getElem?.mp hm
  obtain ⟨_, b, c, _⟩ := hx k x hk
  have hkl := (List.getElem?_eq_some_iff.mp hk).1
  refine ⟨k, by omega, ?_, ?_⟩
  · have : x.num = n := by simpa using hp
    rw [← this, b]; ring
  · rw [c, seqNumsOf_head]; simp

theorem gotoSeq_spec (steps : List Step) (off endStep : Int) (all : List Numbered)
    (hall : numberSteps (off + 1) 0 steps = .ok all) (k : Nat) (hk : k < steps.length) (seqNum target g : Int)
    (hlast : seqNum + 1 = firstSeq steps (k + 1))
    (h : gotoSeq (seqNumsByStep all) (off + 1 + k) seqNum endStep target = .ok g) :
    GoesTo steps off endStep target g := by
  unfold gotoSeq at h
  split at h
  · rename_i ht
    cases h
    refine Or.inr ⟨k + 1, by omega, by rw [ht]; push_cast; ring, hlast⟩
  · split at h
    · rename_i he
      cases h
      exact Or.inl ⟨he, rfl⟩
    · split at h
      · rename_i q r hq
        cases h
        obtain ⟨j, h1, h2, h3⟩ := lookup_spec steps off all hall target _ hq
        simp only [List.head?_cons, Option.some.injEq] at h3
        exact Or.inr ⟨j, by omega, h2, h3⟩
      · cases h
      · cases h

/-- the fields of a converted end entry that steer the program -/
theorem convertEnd_spec (sq : Int → Option (List Int)) (stepNum seqNum lo hi endStep : Int) (e : EndEntry)
    (l : Lim) (h : convertEnd sq stepNum seqNum lo hi endStep e = .ok l) :
    gotoSeq sq stepNum seqNum endStep e.step = .ok l.goto ∧ l.jumps = decide (e.step ≠ stepNum + 1) := by
  unfold convertEnd at h
  split at h
  · cases h
  simp only [bind, Except.bind] at h
  split at h
  · cases h
  rename_i g hg
  rw [hg]
  split at h
  · split at h
    · cases h
    · split at h
      · cases h
      · cases h; exact ⟨rfl, rfl⟩
  · split at h
    · split at h
      · cases h
      · split at h
        · cases h
        · cases h; exact ⟨rfl, rfl⟩
    · split at h
      · split at h
        · cases h
        · split at h
          · cases h
          · cases h; exact ⟨rfl, rfl⟩
      · cases h

theorem control_type (s : Step) (c : String × Option (Rat × String) × Bool) (h : MtB.control s = .ok c) :
    c.1 ≠ "Loop" := by
  unfold MtB.control at h
  split at h
  · cases h; decide
  split at h
  · cases h
  split at h
  · split at h
    · cases h
    · simp only [bind, Except.bind] at h
      split at h
      · cases h
      · cases h; simp only; decide
  split at h
  · split at h
    · cases h
    · simp only [bind, Except.bind] at h
      split at h
      · cases h
      · cases h; simp only; decide
  · cases h

theorem convertPart_spec (sq : Int → Option (List Int)) (stepNum lo hi endStep : Int) (p : Step) (q : Int)
    (r : Seq) (h : convertPart sq stepNum lo hi endStep p q = .ok r) :
    r.ns = q ∧ r.ctrlType ≠ "Loop" ∧
    List.Forall₂ (fun e l => convertEnd sq stepNum q lo hi endStep e = .ok l) p.ends.toList r.lims := by
  unfold convertPart at h
  simp only [bind, Except.bind] at h
  split at h
  · cases h
  rename_i c hc
  split at h
  · cases h
  split at h
  · cases h
  rename_i lims hl
  split at h
  · cases h
  split at h
  · cases h
  cases h
  exact ⟨rfl, control_type p c hc, mapE_forall _ _ _ hl⟩

theorem forall_implements (steps : List Step) (off endStep : Int) (all : List Numbered)
    (hall : numberSteps (off + 1) 0 steps = .ok all) (k : Nat) (hk : k < steps.length) (seqNum lo hi : Int)
    (hlast : seqNum + 1 = firstSeq steps (k + 1)) (ends : List EndEntry) (lims : List Lim)
    (h : List.Forall₂ (fun e l => convertEnd (seqNumsByStep all) (off + 1 + k) seqNum lo hi endStep e = .ok l) ends lims) :
    Implements steps off endStep k lims ends := by
  refine List.Forall₂.flip (h.imp ?_)
  intro e l hel
  obtain ⟨h1, h2⟩ := convertEnd_spec _ _ _ _ _ _ _ _ hel
  refine ⟨gotoSeq_spec steps off endStep all hall k hk seqNum _ _ hlast h1, ?_⟩
  rw [h2, decide_eq_true_iff]
  have : off + 1 + (k : Int) + 1 = off + k + 2 := by ring
  rw [this]

theorem openAt_succ (steps : List Step) (o k : Nat) (s : Step) (h : OpenAt steps o k) (hs : steps[k]? = some s)
    (hm : ¬ (s.stepType = "Do 1" ∨ s.stepType = "Do 2" ∨ s.stepType = "Loop 1" ∨ s.stepType = "Loop 2")) :
    OpenAt steps o (k + 1) := by
  refine ⟨by have := h.1; omega, h.2.1, ?_⟩
  intro j s' h1 h2 h3
  by_cases hj : j = k
  · subst hj; rw [hs] at h3; cases h3; exact hm
  · exact h.2.2 j s' h1 (by omega) h3

theorem convertParts_one (sq : Int → Option (List Int)) (n lo hi e : Int) (p : Step) (q : Int) (out : List Seq)
    (h : convertParts sq n lo hi e [p] [q] = .ok out) :
    ∃ r, out = [r] ∧ convertPart sq n lo hi e p q = .ok r := by
  unfold convertParts at h
  simp only [bind, Except.bind] at h
  split at h
  · cases h
  rename_i r hr
  split at h
  · cases h
  rename_i rest hrest
  cases h
  cases hrest
  exact ⟨r, rfl, hr⟩

theorem convertParts_two (sq : Int → Option (List Int)) (n lo hi e : Int) (p p' : Step) (q q' : Int) (out : List Seq)
    (h : convertParts sq n lo hi e [p, p'] [q, q'] = .ok out) :
    ∃ r r', out = [r, r'] ∧ convertPart sq n lo hi e p q = .ok r ∧ convertPart sq n lo hi e p' q' = .ok r' := by
  unfold convertParts at h
  simp only [bind, Except.bind] at h
  split at h
  · cases h
  rename_i r hr
  split at h
  · cases h
  rename_i rest hrest
  cases h
  obtain ⟨r', rfl, hr'⟩ := convertParts_one sq n lo hi e p' q' rest hrest
  exact ⟨r, r', rfl, hr, hr'⟩

/-- what is shown about the sequences emitted from position `k` on -/
def Emitted (steps : List Step) (off endStep : Int) (k : Nat) (out : List Seq) : Prop :=
  out.length + firstSeq steps k = firstSeq steps steps.length ∧
  (∀ (i : Nat) q, out[i]? = some q → q.ns = firstSeq steps k + i) ∧
  ∀ pre : List Seq, pre.length = firstSeq steps k →
    ∀ (j : Nat) s, k ≤ j → steps[j]? = some s → BlockAt steps off endStep (pre ++ out) j s

theorem emitted_cons (steps : List Step) (off endStep : Int) (k : Nat) (s : Step) (hs : steps[k]? = some s)
    (m out : List Seq) (hm : m.length = seqCount s)
    (hns : ∀ (i : Nat) q, m[i]? = some q → q.ns = firstSeq steps k + i)
    (hb : ∀ pre rest : List Seq, pre.length = firstSeq steps k → BlockAt steps off endStep (pre ++ (m ++ rest)) k s)
    (h : Emitted steps off endStep (k + 1) out) : Emitted steps off endStep k (m ++ out) := by
  have hf := firstSeq_succ steps k s hs
  obtain ⟨h1, h2, h3⟩ := h
  refine ⟨by rw [List.length_append]; omega, ?_, ?_⟩
  · intro i q hq
    by_cases hi : i < m.length
    · rw [List.getElem?_append_left hi] at hq
      exact hns i q hq
    · rw [List.getElem?_append_right (by omega)] at hq
      rw [h2 _ q hq, hf, ← hm]
      push_cast [Nat.cast_sub (show m.length ≤ i by omega)]
      ring
  · intro pre hpre j s' hj hs'
    by_cases hjk : j = k
    · subst hjk
      rw [hs] at hs'; cases hs'
      exact hb pre out hpre
    · rw [← List.append_assoc]
      exact h3 (pre ++ m) (by rw [List.length_append]; omega) j s' (by omega) hs'

theorem getElem?_pre {α : Type} (pre l : List α) (n i : Nat) (h : pre.length = n) : (pre ++ l)[n + i]? = l[i]? := by
  rw [List.getElem?_append_right (by omega)]
  congr 1; omega

theorem build_spec (steps : List Step) (off endStep hi : Int) (all : List Numbered)
    (hall : numberSteps (off + 1) 0 steps = .ok all) (xs : List Numbered) (k : Nat) (hxs : all.drop k = xs)
    (hk : k ≤ steps.length) (lo : Int) (opened : Option Int)
    (hopen : ∀ o', opened = some o' → ∃ o : Nat, o' = off + o + 1 ∧ OpenAt steps o k)
    (out : List Seq) (h : buildSeqs all hi endStep lo opened xs = .ok out) :
    Emitted steps off endStep k out := by
  obtain ⟨hl, hnum⟩ := number_spec _ _ _ _ hall
  induction xs generalizing k lo opened out with
  | nil =>
    cases h
    have : all.length ≤ k := List.drop_eq_nil_iff.mp hxs
    have hkk : k = steps.length := by omega
    refine ⟨by rw [hkk]; simp, by intro i q hq; simp at hq, ?_⟩
    intro pre _ j s hj hs
    have := (List.getElem?_eq_some_iff.mp hs).1
    omega
  | cons x xs ih =>
    have hx : all[k]? = some x := by
      have := congrArg List.head? hxs
      rwa [List.head?_drop] at this
    have hd : all.drop (k + 1) = xs := by
      have := congrArg List.tail hxs
      rwa [List.tail_drop] at this
    obtain ⟨hs, hn, hq, hp⟩ := hnum k x hx
    have hkl := (List.getElem?_eq_some_iff.mp hs).1
    have hf := firstSeq_succ steps k x.step hs
    unfold buildSeqs at h
    by_cases h1 : isOpen x.step.stepType = true
    · rw [if_pos h1] at h
      have ht := (isOpen_iff _).mp h1
      have hopen' : ∀ o', some x.num = some o' → ∃ o : Nat, o' = off + o + 1 ∧ OpenAt steps o (k + 1) := by
        intro o' ho'
        cases ho'
        refine ⟨k, by rw [hn]; ring, by omega, ⟨x.step, hs, ht⟩, ?_⟩
        intro j s h1 h2; omega
      have := ih (k + 1) hd (by omega) _ _ hopen' out h
      refine emitted_cons steps off endStep k x.step hs [] out ?_ (by intro i q hq; simp at hq) ?_ this
      · unfold seqCount; rw [if_pos (by tauto)]; rfl
      · intro pre rest _
        unfold BlockAt; rw [if_pos (by tauto)]; trivial
    rw [if_neg h1] at h
    have h1' := fun hh => h1 ((isOpen_iff _).mpr hh)
    by_cases h2 : x.step.stepType = "AdvCycle"
    · rw [if_pos h2] at h
      have hopen' : ∀ o', opened = some o' → ∃ o : Nat, o' = off + o + 1 ∧ OpenAt steps o (k + 1) := by
        intro o' ho'
        obtain ⟨o, a, b⟩ := hopen o' ho'
        exact ⟨o, a, openAt_succ steps o k x.step b hs (by rw [h2]; decide)⟩
      have := ih (k + 1) hd (by omega) _ _ hopen' out h
      refine emitted_cons steps off endStep k x.step hs [] out ?_ (by intro i q hq; simp at hq) ?_ this
      · unfold seqCount; rw [if_pos (by tauto)]; rfl
      · intro pre rest _
        unfold BlockAt; rw [if_pos (by tauto)]; trivial
    rw [if_neg h2] at h
    by_cases h3 : isClose x.step.stepType = true
    · rw [if_pos h3] at h
      have ht := (isClose_iff _).mp h3
      have hc : seqCount x.step = 1 := by
        unfold seqCount; rw [if_neg (by tauto), if_pos ht]
      cases ho : opened with
      | none => rw [ho] at h; cases h
      | some o' =>
        rw [ho] at h
        simp only at h
        split at h
        · rename_i q t r hqs hlook
          simp only [bind, Except.bind] at h
          split at h
          · cases h
          rename_i n hcount
          split at h
          · cases h
          rename_i rest hrest
          cases h
          have hq0 : q = firstSeq steps k := by
            rw [hqs, hc] at hq
            simp [seqNumsOf] at hq
            exact hq
          obtain ⟨o, hoo, hoa⟩ := hopen o' ho
          have hto : t = firstSeq steps o := by
            obtain ⟨j, a, b, c⟩ := lookup_spec steps off all hall o' _ hlook
            simp only [List.head?_cons, Option.some.injEq] at c
            have : j = o := by omega
            subst this; exact c
          have := ih (k + 1) hd (by omega) _ _ (by intro o' h; cases h) rest hrest
          refine emitted_cons steps off endStep k x.step hs [_] rest (by rw [hc]; rfl) ?_ ?_ this
          · intro i s' hs'
            cases i with
            | zero =>
              simp only [List.getElem?_cons_zero, Option.some.injEq] at hs'
              subst hs'
              simp [loopSeq, hq0]
            | succ i => simp at hs'
          · intro pre rest hpre
            unfold BlockAt
            rw [if_neg (by tauto), if_pos ht]
            refine ⟨loopSeq q t (max (n - 1) 0), o, n, ?_, rfl, rfl, hoa, hto, hcount, rfl⟩
            have := getElem?_pre pre ([loopSeq q t (max (n - 1) 0)] ++ rest) _ 0 hpre
            rw [Nat.add_zero] at this
            rw [this]; rfl
        · cases h
    rw [if_neg h3] at h
    have h3' := fun hh => h3 ((isClose_iff _).mpr hh)
    simp only [bind, Except.bind] at h
    split at h
    · cases h
    rename_i seqs hseqs
    split at h
    · cases h
    rename_i rest hrest
    cases h
    have hopen' : ∀ o', opened = some o' → ∃ o : Nat, o' = off + o + 1 ∧ OpenAt steps o (k + 1) := by
      intro o' ho'
      obtain ⟨o, a, b⟩ := hopen o' ho'
      exact ⟨o, a, openAt_succ steps o k x.step b hs (by tauto)⟩
    have hrec := ih (k + 1) hd (by omega) _ _ hopen' rest hrest
    have hsplit : splitStep x.step x.num = .ok x.parts := by
      unfold partsOf at hp
      rw [if_neg, if_neg h3] at hp
      · exact hp
      · rw [Bool.or_eq_true, isOpen_iff, beq_iff_eq]; tauto
    rcases splitStep_cases _ _ _ hsplit with ⟨hlim, hparts⟩ | ⟨hlim, p1, p2, e, hparts, he, het, hp2⟩
    · have hc : seqCount x.step = 1 := by
        unfold seqCount; rw [if_neg (by tauto), if_neg h3', if_pos hlim]
      have hq' : x.seqs = [(firstSeq steps k : Int)] := by
        rw [hq, hc]; simp [seqNumsOf]
      rw [hparts, hq'] at hseqs
      obtain ⟨r, rfl, hr⟩ := convertParts_one _ _ _ _ _ _ _ _ hseqs
      obtain ⟨r1, r2, r3⟩ := convertPart_spec _ _ _ _ _ _ _ _ hr
      refine emitted_cons steps off endStep k x.step hs [r] rest (by rw [hc]; rfl) ?_ ?_ hrec
      · intro i s' hs'
        cases i with
        | zero =>
          simp only [List.getElem?_cons_zero, Option.some.injEq] at hs'
          subst hs'
          simp [r1]
        | succ i => simp at hs'
      · intro pre rest hpre
        unfold BlockAt
        rw [if_neg (by tauto), if_neg h3', if_pos hlim]
        refine ⟨r, ?_, r2, ?_⟩
        · have := getElem?_pre pre ([r] ++ rest) _ 0 hpre
          rw [Nat.add_zero] at this
          rw [this]; rfl
        · rw [hn] at r3
          exact forall_implements steps off endStep all hall k hkl _ _ _ (by rw [hf, hc]; push_cast; ring) _ _ r3
    · have hc : seqCount x.step = 2 := by
        unfold seqCount; rw [if_neg (by tauto), if_neg h3', if_neg hlim]
      have hq' : x.seqs = [(firstSeq steps k : Int), firstSeq steps k + 1] := by
        rw [hq, hc]; simp [seqNumsOf, List.range_succ]
      rw [hparts, hq'] at hseqs
      obtain ⟨r, r', rfl, hr, hr'⟩ := convertParts_two _ _ _ _ _ _ _ _ _ _ hseqs
      obtain ⟨r1, r2, r3⟩ := convertPart_spec _ _ _ _ _ _ _ _ hr
      obtain ⟨r1', r2', r3'⟩ := convertPart_spec _ _ _ _ _ _ _ _ hr'
      refine emitted_cons steps off endStep k x.step hs [r, r'] rest (by rw [hc]; rfl) ?_ ?_ hrec
      · intro i s' hs'
        match i with
        | 0 =>
          simp only [List.getElem?_cons_zero, Option.some.injEq] at hs'
          subst hs'
          simp [r1]
        | 1 =>
          simp only [List.getElem?_cons_succ, List.getElem?_cons_zero, Option.some.injEq] at hs'
          subst hs'
          simp [r1']
        | i + 2 => simp at hs'
      · intro pre rest hpre
        unfold BlockAt
        rw [if_neg (by tauto), if_neg h3', if_neg hlim]
        rw [he] at r3
        have r3 : List.Forall₂ _ [e] r.lims := r3
        cases hrl : r.lims with
        | nil => rw [hrl] at r3; cases r3
        | cons l ls =>
          rw [hrl] at r3
          rw [List.forall₂_cons] at r3
          obtain ⟨hl1, hl2⟩ := r3
          cases hl2
          obtain ⟨g1, g2⟩ := convertEnd_spec _ _ _ _ _ _ _ _ hl1
          refine ⟨r, r', l, ?_, ?_, r2, r2', hrl, ?_, ?_, ?_⟩
          · have := getElem?_pre pre ([r, r'] ++ rest) _ 0 hpre
            rw [Nat.add_zero] at this
            rw [this]; rfl
          · have := getElem?_pre pre ([r, r'] ++ rest) _ 1 hpre
            rw [this]; rfl
          · rw [g2, decide_eq_false_iff_not]; exact not_not.mpr het
          · unfold gotoSeq at g1
            rw [if_pos het] at g1
            exact (Except.ok.inj g1).symm
          · rw [hn, hp2] at r3'
            exact forall_implements steps off endStep all hall k hkl _ _ _ (by rw [hf, hc]; push_cast; ring) _ _ r3'

/-- C25: the sequences of a converted technique are numbered 0, 1, 2, ..., and every step of the
technique is found at its place with its jumps. -/
theorem C25_sequences (steps : List Step) (off endStep : Int) (all : List Numbered) (seqs : List Seq)
    (h : convertSteps steps off endStep = .ok (all, seqs)) :
    seqs.length = firstSeq steps steps.length ∧
    (∀ (i : Nat) q, seqs[i]? = some q → q.ns = i) ∧
    ∀ (k : Nat) s, steps[k]? = some s → BlockAt steps off endStep seqs k s := by
  unfold convertSteps at h
  simp only [bind, Except.bind] at h
  split at h
  · cases h
  rename_i all' hall
  split at h
  · cases h
  rename_i seqs' hseqs
  cases h
  obtain ⟨h1, h2, h3⟩ := build_spec steps off endStep _ all hall all 0 rfl (by omega) _ none (by simp) seqs hseqs
  refine ⟨by simpa [firstSeq_zero] using h1, ?_, ?_⟩
  · intro i q hq
    simpa [firstSeq_zero] using h2 i q hq
  · intro k s hs
    exact h3 [] rfl k s (by omega) hs

/-- the step a sequence belongs to -/
theorem owner (steps : List Step) (i : Nat) (h : i < firstSeq steps steps.length) :
    ∃ (k : Nat) (s : Step), steps[k]? = some s ∧ firstSeq steps k ≤ i ∧ i < firstSeq steps k + seqCount s := by
  have key : ∀ n, n ≤ steps.length → i < firstSeq steps n →
      ∃ (k : Nat) (s : Step), steps[k]? = some s ∧ firstSeq steps k ≤ i ∧ i < firstSeq steps k + seqCount s := by
    intro n
    induction n with
    | zero => intro _ h; rw [firstSeq_zero] at h; omega
    | succ n ih =>
      intro hn hi
      obtain ⟨s, hs⟩ : ∃ s, steps[n]? = some s := ⟨steps[n], List.getElem?_eq_getElem (by omega)⟩
      by_cases hlt : i < firstSeq steps n
      · exact ih (by omega) hlt
      · exact ⟨n, s, hs, by omega, by rw [← firstSeq_succ steps n s hs]; exact hi⟩
  exact key _ (le_refl _) h

theorem goesTo_range (steps : List Step) (off endStep n g : Int) (h : GoesTo steps off endStep n g) :
    g = 9999 ∨ (0 ≤ g ∧ g ≤ firstSeq steps steps.length) := by
  rcases h with ⟨_, h⟩ | ⟨j, hj, _, h⟩
  · exact Or.inl h
  · right
    have := firstSeq_mono steps j steps.length hj
    omega

/-- C25: no jump of a converted technique is out of range. -/
theorem C25_range (steps : List Step) (off endStep : Int) (all : List Numbered) (seqs : List Seq)
    (h : convertSteps steps off endStep = .ok (all, seqs)) (i : Nat) (q : Seq) (hq : seqs[i]? = some q) :
    (∀ l ∈ q.lims, l.goto = 9999 ∨ (0 ≤ l.goto ∧ l.goto ≤ seqs.length)) ∧
    (q.ctrlType = "Loop" → 0 ≤ q.loopTo ∧ q.loopTo ≤ i) := by
  obtain ⟨h1, _, h3⟩ := C25_sequences steps off endStep all seqs h
  have hil := (List.getElem?_eq_some_iff.mp hq).1
  obtain ⟨k, s, hs, ha, hb⟩ := owner steps i (by omega)
  have hblock := h3 k s hs
  have himp : ∀ (lims : List Lim) (ends : List EndEntry), Implements steps off endStep k lims ends →
      ∀ l ∈ lims, l.goto = 9999 ∨ (0 ≤ l.goto ∧ l.goto ≤ seqs.length) := by
    intro lims ends hh
    unfold Implements at hh
    induction hh with
    | nil => intro l hl; cases hl
    | cons hab _ ih =>
      intro l hl
      rcases List.mem_cons.mp hl with e | e
      · subst e; rw [h1]; exact goesTo_range _ _ _ _ _ hab.1
      · exact ih l e
  have hkl := (List.getElem?_eq_some_iff.mp hs).1
  have hf1 := firstSeq_succ steps k s hs
  have hf2 := firstSeq_mono steps (k + 1) steps.length (by omega)
  unfold BlockAt at hblock
  unfold seqCount at hb
  split at hblock
  · rename_i hm
    rw [if_pos hm] at hb; omega
  rename_i hm
  rw [if_neg hm] at hb
  split at hblock
  · rename_i hc
    rw [if_pos hc] at hb
    have hi : i = firstSeq steps k := by omega
    obtain ⟨q', o, n, e1, _, e2, e3, e4, _⟩ := hblock
    rw [← hi, hq] at e1
    cases e1
    refine ⟨(by rw [e2]; intro l hl; cases hl), fun _ => ?_⟩
    have := firstSeq_mono steps o k (by have := e3.1; omega)
    omega
  rename_i hc
  rw [if_neg hc] at hb
  split at hblock
  · rename_i hn
    rw [if_pos hn] at hb
    have hi : i = firstSeq steps k := by omega
    obtain ⟨q', e1, e2, e3⟩ := hblock
    rw [← hi, hq] at e1
    cases e1
    exact ⟨himp _ _ e3, fun hh => absurd hh e2⟩
  · rename_i hn
    rw [if_neg hn] at hb
    have hlen : firstSeq steps k + 2 ≤ seqs.length := by
      have : seqCount s = 2 := by unfold seqCount; rw [if_neg hm, if_neg hc, if_neg hn]
      omega
    obtain ⟨q1, q2, l, e1, e2, t1, t2, e3, _, e4, e5⟩ := hblock
    by_cases hi : i = firstSeq steps k
    · rw [← hi, hq] at e1
      cases e1
      refine ⟨?_, fun hh => absurd hh t1⟩
      rw [e3]
      intro l' hl'
      rw [List.mem_singleton.mp hl', e4]
      right
      omega
    · have hi : i = firstSeq steps k + 1 := by omega
      rw [← hi, hq] at e2
      cases e2
      exact ⟨himp _ _ e5, fun hh => absurd hh t2⟩

/-- C25: a jump that leaves the technique (other than to the next step or the end of the
procedure) is refused. -/
theorem C25_refused (steps : List Step) (off endStep : Int) (k : Nat) (s : Step) (hs : steps[k]? = some s)
    (hm : seqCount s ≠ 0) (hl : ¬ (s.stepType = "Loop 1" ∨ s.stepType = "Loop 2")) (e : EndEntry)
    (he : e ∈ s.ends.toList) (hout : ¬ (off + 1 ≤ e.step ∧ e.step ≤ off + steps.length + 1)) (hend : e.step ≠ endStep) :
    ∃ err, convertSteps steps off endStep = .error err := by
  cases h : convertSteps steps off endStep with
  | error err => exact ⟨err, rfl⟩
  | ok r =>
    exfalso
    obtain ⟨_, _, h3⟩ := C25_sequences steps off endStep r.1 r.2 h
    have hb := h3 k s hs
    have himp : ∀ lims, Implements steps off endStep k lims s.ends.toList → False := by
      intro lims hh
      unfold Implements at hh
      have : ∀ (lims : List Lim) (ends : List EndEntry), List.Forall₂ (fun l e => GoesTo steps off endStep e.step l.goto ∧
          (l.jumps = true ↔ e.step ≠ off + k + 2)) lims ends → e ∉ ends := by
        intro lims ends hh
        induction hh with
        | nil => intro h; cases h
        | cons hab _ ih =>
          intro hmem
          rcases List.mem_cons.mp hmem with e1 | e1
          · subst e1
            rcases hab.1 with ⟨h, _⟩ | ⟨j, hj, h, _⟩
            · exact hend h
            · apply hout; omega
          · exact ih e1
      exact this _ _ hh he
    unfold BlockAt at hb
    unfold seqCount at hm
    split at hb
    · rename_i hm'
      rw [if_pos hm'] at hm; exact hm rfl
    · split at hb
      · obtain ⟨_, _, _, h⟩ := hb; exact himp _ h
      · obtain ⟨_, _, _, _, _, _, _, _, _, _, h⟩ := hb; exact himp _ h

/-! ### the hypotheses are met -/

def seqsOf (steps : List Step) (off endStep : Int) : Except Err (List (Int × String × List Int × Int)) :=
  (convertSteps steps off endStep).map (fun r => r.2.map (fun q => (q.ns, q.ctrlType, q.lims.map Lim.goto, q.loopTo)))

def endTo (n : Int) : EndEntry := { endType := "Voltage", oper := ">=", value := .num ⟨false, 4, [], 0⟩, step := n }

/-- Do 1, a charge split in two that may leave to the end, AdvCycle, a discharge that jumps back to
the first step of the loop, Loop 1, and a charge ending in the last step -/
example : seqsOf [mk "Do 1",
    { mk "Charge" with limits := some { voltage := some (.num ⟨false, 4, [], 0⟩), current := none }, ends := .many [endTo 8, endTo 13] },
    mk "AdvCycle", { mk "Dischrge" with ends := .many [endTo 7, endTo 10] }, mk "Loop 1",
    { mk "Charge" with ends := .single (endTo 12) }] 5 13 =
    .ok [(0, "CC", [1], 0), (1, "CV", [2, 9999], 0), (2, "CC", [0, 3], 0), (3, "Loop", [], 0), (4, "CC", [5], 0)] := by
  decide +kernel

/-- a jump out of the technique -/
example : seqsOf [{ mk "Charge" with ends := .single (endTo 3) }, mk "Rest"] 5 13 = .error .valueError := by
  decide +kernel

end Beep.Props.MtbSeqs
