import Verif.Spec.LoopRuns
import Verif.Proof.CycleFlat
import Verif.Props.MtbContent
import Verif.Props.MtbPartition
import Verif.Props.MtbSteps
/-
C160: a converted procedure runs its steps in the same order and as often.
-/
namespace Beep.Props.LoopRuns
open Beep Beep.MtB Beep.Spec.MtB Beep.Spec.CycleCount Beep.Spec.LoopRuns Beep.Proof.CycleCount Beep.Props.MtbSeqs

theorem count_of_loopCount {s : Step} {n : Int} (h : loopCount s = .ok n) : Count s n := by
  unfold loopCount at h
  split at h
  · rename_i e he
    split at h
    · rename_i d hd
      split at h
      · rename_i hh
        refine ⟨e, he, ?_⟩
        rw [hd]
        simp only [number, Option.some.injEq]
        have := Except.ok.inj h
        rw [← this]
        unfold Units.Dec.value
        rw [hh.1, hh.2]
        cases d.neg <;> simp [Units.fracValue, Units.pow10]
      · cases h
    · cases h
  · cases h

theorem count_unique {s : Step} {m n : Int} (h : Count s m) (h' : Count s n) : m = n := by
  obtain ⟨e, h1, h2⟩ := h
  obtain ⟨e', h1', h2'⟩ := h'
  rw [h1] at h1'
  cases h1'
  rw [h2] at h2'
  exact_mod_cast Option.some.inj h2'

/-- a technique and its place in the procedure -/
structure Placed (steps : List Step) (a : Nat) (t : Technique) (seqs : List Seq) : Prop where
  within : Within steps a t
  nested : Nested t
  len : seqs.length = firstSeq t.steps t.steps.length
  block : ∀ (k : Nat) s, t.steps[k]? = some s → ∃ off e, BlockAt t.steps off e seqs k s

theorem firstSeq_next {steps : List Step} {k : Nat} {s : Step} (h : steps[k]? = some s) :
    firstSeq steps (k + 1) = firstSeq steps k + seqCount s := firstSeq_succ steps k s h

/-- one measuring step -/
theorem measure_both {steps : List Step} {a : Nat} {t : Technique} {seqs : List Seq} (pl : Placed steps a t seqs) (p : Nat)
    (s : Step) (hs : t.steps[p]? = some s) (hm : IsMeasure s) (j : Nat) (btr : List Nat)
    (hb : Bio seqs (firstSeq t.steps (p + 1)) j btr) : Bio seqs (firstSeq t.steps p) j (seqsAt t.steps p ++ btr) := by
  obtain ⟨off, e, hblk⟩ := pl.block p s hs
  have hne : ¬ (s.stepType = "Do 1" ∨ s.stepType = "Do 2" ∨ s.stepType = "AdvCycle") := by
    rcases hm with h | h | h <;> rw [h] <;> decide
  have hne2 : ¬ (s.stepType = "Loop 1" ∨ s.stepType = "Loop 2") := by
    rcases hm with h | h | h <;> rw [h] <;> decide
  unfold BlockAt at hblk
  rw [if_neg hne, if_neg hne2] at hblk
  have hc : seqCount s = if s.limits = none then 1 else 2 := by
    unfold seqCount
    rw [if_neg hne, if_neg hne2]
  unfold seqsAt
  rw [firstSeq_next hs, Nat.add_sub_cancel_left]
  rw [firstSeq_next hs] at hb
  by_cases hlim : s.limits = none
  · rw [if_pos hlim] at hblk hc
    obtain ⟨q, hq, hqt, _⟩ := hblk
    rw [hc] at hb ⊢
    exact .run _ _ _ q hq hqt hb
  · rw [if_neg hlim] at hblk hc
    obtain ⟨q1, q2, _, hq1, hq2, h1, h2, _⟩ := hblk
    rw [hc] at hb ⊢
    exact .run _ _ _ q1 hq1 h1 (.run _ _ _ q2 hq2 h2 hb)

/-- a stretch without loop steps -/
theorem straight {steps : List Step} {a : Nat} {t : Technique} {seqs : List Seq} (pl : Placed steps a t seqs) (d : Nat) :
    ∀ p q, p + d = q → q ≤ t.steps.length →
    (∀ (i : Nat) s, p ≤ i → i < q → t.steps[i]? = some s → ¬ IsDo s ∧ ¬ IsLoop s) →
    ∃ pre : List Nat, (∀ i ∈ pre, i < t.steps.length) ∧ (∀ k tr, Mac steps (a + q) k tr → Mac steps (a + p) k (pre.map (a + ·) ++ tr)) ∧
      ∀ j btr, Bio seqs (firstSeq t.steps q) j btr → Bio seqs (firstSeq t.steps p) j (pre.flatMap (seqsAt t.steps) ++ btr) := by
  induction d with
  | zero =>
    intro p q h _ _
    obtain rfl : p = q := by omega
    exact ⟨[], by simp, fun k tr h => h, fun j btr h => h⟩
  | succ d ih =>
    intro p q h hq hno
    obtain ⟨pre, h0, h1, h2⟩ := ih (p + 1) q (by omega) hq (fun i s hi hi' hs => hno i s (by omega) hi' hs)
    obtain ⟨s, hs⟩ : ∃ s, t.steps[p]? = some s := ⟨t.steps[p], List.getElem?_eq_getElem (by omega)⟩
    have hw := pl.within.get hs
    have hn := hno p _ (le_refl _) (by omega) hs
    rcases pl.nested.kinds s (List.mem_of_getElem? hs) with hk | hk | hk | hk
    · refine ⟨p :: pre, List.forall_mem_cons.mpr ⟨by omega, h0⟩, fun k tr h => ?_, fun j btr h => ?_⟩
      · exact .measure _ _ _ _ hw hk (h1 k tr h)
      · rw [List.flatMap_cons, List.append_assoc]
        exact measure_both pl p _ hs hk j _ (h2 j btr h)
    · refine ⟨pre, h0, fun k tr h => .adv _ _ _ _ hw hk (h1 k tr h), fun j btr h => ?_⟩
      have : firstSeq t.steps (p + 1) = firstSeq t.steps p := by
        rw [firstSeq_next hs]
        have : seqCount s = 0 := by
          unfold IsAdv at hk
          unfold seqCount
          rw [if_pos (Or.inr (Or.inr hk))]
        omega
      rw [← this]
      exact h2 j btr h
    · exact absurd hk hn.1
    · exact absurd hk hn.2

/-- the counters while a technique runs: `j` for its own loops, `x` for the loop around it -/
def laps (t : Technique) (x j : Nat) : Laps := if t.loops then ⟨x, j⟩ else ⟨j, x⟩

/-- going back -/
theorem go_again {steps : List Step} {t : Technique} {x j : Nat} {pc o : Nat} {s : Step} {n : Int} {tr : List Nat}
    (hs : steps[pc]? = some s) (ht : s.stepType = inLoop t) (hn : Count s n) (hk : (j : Int) + 1 < n)
    (ho : LoopsTo steps o pc) (h : Mac steps (o + 1) (laps t x (j + 1)) tr) : Mac steps pc (laps t x j) tr := by
  unfold laps inLoop at *
  cases hl : t.loops
  · rw [hl] at ht h
    exact .again1 pc _ tr s n o hs ht hn hk ho h
  · rw [hl] at ht h
    exact .again2 pc _ tr s n o hs ht hn hk ho h

theorem go_on {steps : List Step} {t : Technique} {x j : Nat} {pc : Nat} {s : Step} {n : Int} {tr : List Nat}
    (hs : steps[pc]? = some s) (ht : s.stepType = inLoop t) (hn : Count s n) (hk : n ≤ (j : Int) + 1)
    (h : Mac steps (pc + 1) (laps t x 0) tr) : Mac steps pc (laps t x j) tr := by
  unfold laps inLoop at *
  cases hl : t.loops
  · rw [hl] at ht h
    exact .leave1 pc _ tr s n hs ht hn hk h
  · rw [hl] at ht h
    exact .leave2 pc _ tr s n hs ht hn hk h

theorem enter {steps : List Step} {t : Technique} {x j : Nat} {pc : Nat} {s : Step} {tr : List Nat}
    (hs : steps[pc]? = some s) (ht : s.stepType = inDo t) (h : Mac steps (pc + 1) (laps t x 0) tr) :
    Mac steps pc (laps t x j) tr := by
  unfold laps inDo at *
  cases hl : t.loops
  · rw [hl] at ht h
    exact .do1 pc _ tr s hs ht h
  · rw [hl] at ht h
    exact .do2 pc _ tr s hs ht h

/-- what is measured from position `p` of a technique to its end -/
def Pass (steps : List Step) (a : Nat) (t : Technique) (seqs : List Seq) (p j : Nat) (pre : List Nat) : Prop :=
  (∀ i ∈ pre, i < t.steps.length) ∧
  (∀ x tr, Mac steps (a + t.steps.length) (laps t x 0) tr → Mac steps (a + p) (laps t x j) (pre.map (a + ·) ++ tr)) ∧
  Bio seqs (firstSeq t.steps p) j (pre.flatMap (seqsAt t.steps))

theorem pass_loop {steps : List Step} {a : Nat} {t : Technique} {seqs : List Seq} (pl : Placed steps a t seqs) (p : Nat)
    (s : Step) (hs : t.steps[p]? = some s) (hk : IsLoop s) (rest : List Nat)
    (hrest : Pass steps a t seqs (p + 1) 0 rest) (d : Nat) :
    ∀ j n, Count s n → n.toNat - j = d → ∃ pre, Pass steps a t seqs p j pre := by
  obtain ⟨off, e, hblk⟩ := pl.block p s hs
  unfold BlockAt at hblk
  have hp := (List.getElem?_eq_some_iff.mp hs).1
  rw [if_neg (by rcases hk with h | h <;> rw [h] <;> decide), if_pos (show s.stepType = "Loop 1" ∨ s.stepType = "Loop 2" from hk)] at hblk
  obtain ⟨q, o, m, hq, hqt, _, ho, hto, hm, hrep⟩ := hblk
  have hc := pl.nested.closes s (List.mem_of_getElem? hs) hk
  have hw := pl.within.get hs
  have hlt := loopsTo_of_openAt pl.within pl.nested hs hk ho
  obtain ⟨h1, ⟨dd, hd, hdd⟩, h3⟩ := (openAt_iff _ _ _).mp ho
  have hfo : firstSeq t.steps (o + 1) = firstSeq t.steps o := by
    rw [firstSeq_next hd]
    have : seqCount dd = 0 := by
      unfold seqCount
      rw [if_pos (by rcases hdd with h | h <;> rw [h] <;> decide)]
    omega
  have hfp : firstSeq t.steps (p + 1) = firstSeq t.steps p + 1 := by
    rw [firstSeq_next hs]
    unfold seqCount
    rw [if_neg (by rcases hk with h | h <;> rw [h] <;> decide), if_pos (show s.stepType = "Loop 1" ∨ s.stepType = "Loop 2" from hk)]
  induction d with
  | zero =>
    intro j n hn hd
    have := count_unique hn (count_of_loopCount hm)
    subst this
    refine ⟨rest, hrest.1, fun x tr h => go_on hw hc hn (by omega) (hrest.2.1 x tr h), ?_⟩
    refine .leave _ _ _ q hq hqt (by rw [hrep]; omega) ?_
    rw [← hfp]
    exact hrest.2.2
  | succ d ih =>
    intro j n hn hd
    have := count_unique hn (count_of_loopCount hm)
    subst this
    by_cases hlast : n ≤ (j : Int) + 1
    · refine ⟨rest, hrest.1, fun x tr h => go_on hw hc hn hlast (hrest.2.1 x tr h), ?_⟩
      refine .leave _ _ _ q hq hqt (by rw [hrep]; omega) ?_
      rw [← hfp]
      exact hrest.2.2
    · obtain ⟨pre, p0, p1, p2⟩ := ih (j + 1) n hn (by omega)
      obtain ⟨mid, m0, m1, m2⟩ := straight pl (p - (o + 1)) (o + 1) p (by omega) (by omega)
        (fun i s hi hi' hs => h3 i s (by omega) hi' hs)
      refine ⟨mid ++ pre, fun i hi => (List.mem_append.mp hi).elim (m0 i) (p0 i), fun x tr h => ?_, ?_⟩
      · refine go_again hw hc hn (by omega) hlt ?_
        rw [List.map_append, List.append_assoc]
        exact m1 _ _ (p1 x tr h)
      · refine .again _ _ _ q _ hq hqt (by rw [hrep]; omega) hto ?_
        rw [List.flatMap_append, ← hfo]
        exact m2 _ _ p2

theorem pass_exists {steps : List Step} {a : Nat} {t : Technique} {seqs : List Seq} (pl : Placed steps a t seqs) (d : Nat) :
    ∀ p, p + d = t.steps.length → ∃ pre, Pass steps a t seqs p 0 pre := by
  induction d with
  | zero =>
    intro p hp
    obtain rfl : p = t.steps.length := by omega
    refine ⟨[], by simp, fun x tr h => h, ?_⟩
    rw [← pl.len]
    exact .done 0
  | succ d ih =>
    intro p hp
    obtain ⟨rest, hrest⟩ := ih (p + 1) (by omega)
    obtain ⟨s, hs⟩ : ∃ s, t.steps[p]? = some s := ⟨t.steps[p], List.getElem?_eq_getElem (by omega)⟩
    have hw := pl.within.get hs
    rcases pl.nested.kinds s (List.mem_of_getElem? hs) with hk | hk | hk | hk
    · exact ⟨p :: rest, List.forall_mem_cons.mpr ⟨by omega, hrest.1⟩, fun x tr h => .measure _ _ _ _ hw hk (hrest.2.1 x tr h), measure_both pl p _ hs hk 0 _ hrest.2.2⟩
    · refine ⟨rest, hrest.1, fun x tr h => .adv _ _ _ _ hw hk (hrest.2.1 x tr h), ?_⟩
      have : seqCount s = 0 := by
        unfold IsAdv at hk
        unfold seqCount
        rw [if_pos (Or.inr (Or.inr hk))]
      have hf := firstSeq_next hs
      rw [this] at hf
      replace hf : firstSeq t.steps (p + 1) = firstSeq t.steps p := hf
      rw [← hf]
      exact hrest.2.2
    · refine ⟨rest, hrest.1, fun x tr h => enter hw (pl.nested.opens s (List.mem_of_getElem? hs) hk) (hrest.2.1 x tr h), ?_⟩
      have : seqCount s = 0 := by
        unfold seqCount
        rw [if_pos (by rcases hk with h | h <;> rw [h] <;> decide)]
      have hf := firstSeq_next hs
      rw [this] at hf
      replace hf : firstSeq t.steps (p + 1) = firstSeq t.steps p := hf
      rw [← hf]
      exact hrest.2.2
    · obtain ⟨off, e, hblk⟩ := pl.block p _ hs
      unfold BlockAt at hblk
      rw [if_neg (by rcases hk with h | h <;> rw [h] <;> decide), if_pos (show s.stepType = "Loop 1" ∨ s.stepType = "Loop 2" from hk)] at hblk
      obtain ⟨q, o, m, hq, hqt, _, ho, hto, hm, hrep⟩ := hblk
      exact pass_loop pl p _ hs hk rest hrest _ 0 m (count_of_loopCount hm) rfl

/-! ### from the conversion -/

theorem alternates_mem {o c : String} (ms : List String) : ∀ b, Alternates o c b ms → ∀ m ∈ ms, m = o ∨ m = c := by
  induction ms with
  | nil => intro b _ m hm; cases hm
  | cons x xs ih =>
    intro b h m hm
    cases b
    · rcases List.mem_cons.mp hm with rfl | hm
      · exact Or.inl h.1
      · exact ih true h.2 m hm
    · rcases List.mem_cons.mp hm with rfl | hm
      · exact Or.inr h.1
      · exact ih false h.2 m hm

/-- the parts of a conversion -/
theorem convert_parts (cfg : Config) (steps : List Step) (r : List (Converted × List Seq) × List Beep.CycleRules.Rules)
    (h : convert cfg steps = .ok r) : ∃ (body : List Step) (last : Step),
      mapE (mapStep cfg) steps = .ok (body ++ [last]) ∧ last.stepType = "End" ∧
      partition body = .ok (r.1.map (fun c => c.1.tech)) ∧
      ∀ c ∈ r.1, ∃ e, convertSteps c.1.tech.steps c.1.tech.offset e = .ok (c.1.numbered, c.2) := by
  unfold convert at h
  simp only [bind, Except.bind] at h
  split at h
  · cases h
  rename_i mapped hmapped
  split at h
  · cases h
  rename_i last hlast
  split at h
  · cases h
  rename_i hend
  split at h
  · cases h
  rename_i techs htechs
  split at h
  · cases h
  rename_i conv hconv
  split at h
  · cases h
  rename_i rules hr
  cases h
  push Not at hend
  have hne : mapped ≠ [] := by
    intro e; rw [e] at hlast; cases hlast
  have hsplit : mapped.dropLast ++ [last] = mapped := by
    have hg : mapped.getLast hne = last := by
      rw [List.getLast?_eq_some_getLast hne] at hlast; exact Option.some.inj hlast
    rw [← hg]; exact List.dropLast_append_getLast hne
  refine ⟨mapped.dropLast, last, by rw [hsplit]; exact hmapped, hend, ?_, ?_⟩
  · rw [htechs]
    congr 1
    have := Props.MtbPartition.mapE_forall _ _ _ hconv
    clear hr htechs hconv
    induction this with
    | nil => rfl
    | @cons a b as bs hab _ ih =>
      rw [List.map_cons, ← ih]
      split at hab
      · cases hab
      · cases hab; rfl
  · have := Props.MtbPartition.mapE_forall _ _ _ hconv
    clear hr htechs hconv
    intro c hc
    induction this with
    | nil => cases hc
    | @cons a b as bs hab _ ih =>
      rcases List.mem_cons.mp hc with rfl | hc
      · split at hab
        · cases hab
        · rename_i x hx
          cases hab
          exact ⟨_, hx⟩
      · exact ih hc

theorem placed (cfg : Config) (steps : List Step) (r : List (Converted × List Seq) × List Beep.CycleRules.Rules)
    (h : convert cfg steps = .ok r) (c : Converted × List Seq) (hc : c ∈ r.1) (body : List Step) (a : Nat)
    (hw : Within body a c.1.tech) : Placed body a c.1.tech c.2 := by
  have halt := Props.MtbPartition.C24_loops_partial cfg steps r h c hc
  obtain ⟨_, _, _, _, _, hconv⟩ := convert_parts cfg steps r h
  obtain ⟨e, he⟩ := hconv c hc
  obtain ⟨h1, _, h3⟩ := C25_sequences _ _ _ _ _ he
  have hok := (Props.MtbContent.C88_accepts_partial c.1.tech.steps c.1.tech.offset e).mp ⟨_, he⟩
  have hmark : ∀ s ∈ c.1.tech.steps, (IsDo s ∨ IsLoop s) → s.stepType = inDo c.1.tech ∨ s.stepType = inLoop c.1.tech := by
    intro s hs hm
    have hmem : s.stepType ∈ marks c.1.tech.steps := by
      unfold marks
      refine List.mem_filter.mpr ⟨List.mem_map.mpr ⟨s, hs, rfl⟩, ?_⟩
      rcases hm with (h | h) | (h | h) <;> rw [h] <;> decide
    exact alternates_mem _ _ halt _ hmem
  refine ⟨hw, ⟨?_, ?_, ?_, ?_⟩, h1, fun k s hs => ⟨_, _, h3 k s hs⟩⟩
  · intro s hs
    obtain ⟨k, hk⟩ := List.mem_iff_getElem?.mp hs
    have := hok k s hk
    unfold StepOk at this
    by_cases h1 : s.stepType = "Do 1" ∨ s.stepType = "Do 2" ∨ s.stepType = "AdvCycle"
    · rcases h1 with h1 | h1 | h1
      · exact Or.inr (Or.inr (Or.inl (Or.inl h1)))
      · exact Or.inr (Or.inr (Or.inl (Or.inr h1)))
      · exact Or.inr (Or.inl h1)
    rw [if_neg h1] at this
    by_cases h2 : s.stepType = "Loop 1" ∨ s.stepType = "Loop 2"
    · exact Or.inr (Or.inr (Or.inr h2))
    rw [if_neg h2] at this
    rcases this.1 with h | ⟨h | h, _⟩
    · exact Or.inl (Or.inl h)
    · exact Or.inl (Or.inr (Or.inl h))
    · exact Or.inl (Or.inr (Or.inr h))
  · intro s hs hd
    rcases hmark s hs (Or.inl hd) with h | h
    · exact h
    · exfalso
      unfold inLoop at h
      rcases hd with h' | h' <;> rw [h'] at h <;> revert h <;> cases c.1.tech.loops <;> decide
  · intro s hs hd
    rcases hmark s hs (Or.inr hd) with h | h
    · exfalso
      unfold inDo at h
      rcases hd with h' | h' <;> rw [h'] at h <;> revert h <;> cases c.1.tech.loops <;> decide
    · exact h
  · intro k s hs hl
    have := hok k s hs
    unfold StepOk at this
    rw [if_neg (by rcases hl with h | h <;> rw [h] <;> decide),
      if_pos (show s.stepType = "Loop 1" ∨ s.stepType = "Loop 2" from hl)] at this
    exact this.1

/-- procedures that differ only in end entries of other steps run alike -/
theorem mac_congr {l l' : List Step} (h : List.Forall₂ (fun s s' => s.stepType = s'.stepType ∧ ∀ n, Count s' n → Count s n) l l')
    {pc : Nat} {k : Laps} {tr : List Nat} (m : Mac l' pc k tr) : Mac l pc k tr := by
  have hlen := h.length_eq
  have hget : ∀ (i : Nat) s', l'[i]? = some s' → ∃ s, l[i]? = some s ∧ s.stepType = s'.stepType ∧ ∀ n, Count s' n → Count s n := by
    intro i s' hs
    have hi := (List.getElem?_eq_some_iff.mp hs).1
    have := List.Forall₂.get h (by omega) hi
    refine ⟨l[i], List.getElem?_eq_getElem (by omega), ?_⟩
    rw [← (List.getElem?_eq_some_iff.mp hs).2]
    exact this
  have htype : ∀ i : Nat, (l[i]?).map Step.stepType = (l'[i]?).map Step.stepType := by
    intro i
    cases hi : l'[i]? with
    | none =>
      have := List.getElem?_eq_none_iff.mp hi
      rw [List.getElem?_eq_none (by omega)]
    | some s' =>
      obtain ⟨s, hs, ht, _⟩ := hget i s' hi
      rw [hs]
      simp [ht]
  have hto : ∀ o pc, LoopsTo l' o pc → LoopsTo l o pc := by
    rintro o pc ⟨h1, d, c, h2, h3, h4, h5⟩
    exact ⟨h1, d, c, h2, by rw [htype]; exact h3, by rw [htype]; exact h4, fun j a b => by rw [htype]; exact h5 j a b⟩
  induction m with
  | done k => rw [← hlen]; exact .done k
  | adv pc k tr s hs ht _ ih =>
    obtain ⟨s', a, b, _⟩ := hget _ _ hs
    exact .adv _ _ _ s' a (by unfold IsAdv at *; rw [b]; exact ht) ih
  | do1 pc k tr s hs ht _ ih =>
    obtain ⟨s', a, b, _⟩ := hget _ _ hs
    exact .do1 _ _ _ s' a (b.trans ht) ih
  | do2 pc k tr s hs ht _ ih =>
    obtain ⟨s', a, b, _⟩ := hget _ _ hs
    exact .do2 _ _ _ s' a (b.trans ht) ih
  | measure pc k tr s hs ht _ ih =>
    obtain ⟨s', a, b, _⟩ := hget _ _ hs
    exact .measure _ _ _ s' a (by unfold IsMeasure at *; rw [b]; exact ht) ih
  | again1 pc k tr s n o hs ht hn hk ho _ ih =>
    obtain ⟨s', a, b, c⟩ := hget _ _ hs
    exact .again1 _ _ _ s' n o a (b.trans ht) (c n hn) hk (hto _ _ ho) ih
  | leave1 pc k tr s n hs ht hn hk _ ih =>
    obtain ⟨s', a, b, c⟩ := hget _ _ hs
    exact .leave1 _ _ _ s' n a (b.trans ht) (c n hn) hk ih
  | again2 pc k tr s n o hs ht hn hk ho _ ih =>
    obtain ⟨s', a, b, c⟩ := hget _ _ hs
    exact .again2 _ _ _ s' n o a (b.trans ht) (c n hn) hk (hto _ _ ho) ih
  | leave2 pc k tr s n hs ht hn hk _ ih =>
    obtain ⟨s', a, b, c⟩ := hget _ _ hs
    exact .leave2 _ _ _ s' n a (b.trans ht) (c n hn) hk ih

theorem filterEnds_single (pred : EndEntry → Except Err Bool) (s s' : Step) (h : filterEnds pred s = .ok s') (e : EndEntry)
    (he : s'.ends = .single e) : s' = s := by
  unfold filterEnds at h
  split at h
  · cases h; rfl
  · cases h; rfl
  · rename_i l hl
    simp only [bind, Except.bind] at h
    split at h
    · cases h
    · rename_i kept _
      have h' := Except.ok.inj h
      by_cases h1 : kept.length = l.length
      · rw [if_pos h1] at h'
        exact h'.symm
      · rw [if_neg h1] at h'
        rw [← h'] at he
        simp only at he
        split at he <;> cases he

/-- the filters leave single end entries, and with them the counts of loops, alone -/
theorem mapStep_count (cfg : Config) (s s' : Step) (h : mapStep cfg s = .ok s') (n : Int) (hc : Count s' n) : Count s n := by
  obtain ⟨e, he, hv⟩ := hc
  unfold mapStep at h
  simp only [bind, Except.bind] at h
  split at h
  · cases h
  rename_i s1 h1
  split at h
  · cases h
  rename_i s2 h2
  split at h
  · cases h
  rename_i s3 h3
  have e4 := filterEnds_single _ _ _ h e he
  subst e4
  have e3 := filterEnds_single _ _ _ h3 e he
  subst e3
  have e2 := filterEnds_single _ _ _ h2 e he
  subst e2
  have e1 := filterEnds_single _ _ _ h1 e he
  subst e1
  exact ⟨e, he, hv⟩

theorem mapped_same (cfg : Config) (steps body : List Step) (last : Step)
    (hm : mapE (mapStep cfg) steps = .ok (body ++ [last])) :
    List.Forall₂ (fun s s' => s.stepType = s'.stepType ∧ ∀ n, Count s' n → Count s n) steps.dropLast body := by
  have h2 : List.Forall₂ (fun s s' => s.stepType = s'.stepType ∧ ∀ n, Count s' n → Count s n) steps (body ++ [last]) := by
    refine (Props.MtbPartition.mapE_forall _ _ _ hm).imp ?_
    intro s s' h
    refine ⟨?_, fun n hn => mapStep_count cfg s s' h n hn⟩
    have := Props.MtbPartition.mapStep_other cfg s s' h
    rw [← this]
  have h3 := List.forall₂_take body.length h2
  rw [List.take_left'] at h3
  · have e : steps.take body.length = steps.dropLast := by
      rw [List.dropLast_eq_take]
      congr 1
      have := h2.length_eq
      simp at this
      omega
    rw [e] at h3
    exact h3
  · rfl

theorem loopsTo_unique {l : List Step} {o o' pc : Nat} (h : LoopsTo l o pc) (h' : LoopsTo l o' pc) : o = o' := by
  obtain ⟨h1, d, c, h2, h3, h4, h5⟩ := h
  obtain ⟨h1', d', c', h2', h3', h4', h5'⟩ := h'
  have hc : c = c' := by rw [h3] at h3'; exact Option.some.inj h3'
  have hd : d = d' := by
    subst hc
    simp only [List.mem_cons, Prod.mk.injEq, List.not_mem_nil, or_false] at h2 h2'
    rcases h2 with ⟨rfl, rfl⟩ | ⟨rfl, rfl⟩ <;> rcases h2' with ⟨rfl, h⟩ | ⟨rfl, h⟩ <;>
      first | rfl | exact absurd h (by decide)
  subst hd
  rcases Nat.lt_trichotomy o o' with h | h | h
  · exact absurd h4' (h5 o' h h1')
  · exact h
  · exact absurd h4 (h5' o h h1)

theorem mac_unique {l : List Step} {pc : Nat} {k : Laps} {tr tr' : List Nat} (h : Mac l pc k tr) (h' : Mac l pc k tr') :
    tr = tr' := by
  have hend : ∀ {s : Step}, l[l.length]? = some s → False := by
    intro s hs
    have := (List.getElem?_eq_some_iff.mp hs).1
    omega
  have key : ∀ {i : Nat} {s s' : Step} {a b : String}, l[i]? = some s → l[i]? = some s' → s.stepType = a → s'.stepType = b →
      a = b := by
    intro i s s' a b h1 h2 h3 h4
    rw [h1] at h2
    cases h2
    exact h3.symm.trans h4
  have keyM : ∀ {i : Nat} {s s' : Step} {b : String}, l[i]? = some s → l[i]? = some s' → IsMeasure s → s'.stepType = b →
      "Rest" = b ∨ "Charge" = b ∨ "Dischrge" = b := by
    intro i s s' b h1 h2 h3 h4
    rcases h3 with h | h | h
    · exact Or.inl (key h1 h2 h h4)
    · exact Or.inr (Or.inl (key h1 h2 h h4))
    · exact Or.inr (Or.inr (key h1 h2 h h4))
  have keyC : ∀ {i : Nat} {s s' : Step} {m n : Int}, l[i]? = some s → l[i]? = some s' → Count s m → Count s' n → m = n := by
    intro i s s' m n h1 h2 h3 h4
    rw [h1] at h2
    cases h2
    exact count_unique h3 h4
  induction h generalizing tr' with
  | done k =>
    cases h' with
    | done => rfl
    | adv _ _ _ s hs => exact (hend hs).elim
    | do1 _ _ _ s hs => exact (hend hs).elim
    | do2 _ _ _ s hs => exact (hend hs).elim
    | measure _ _ _ s hs => exact (hend hs).elim
    | again1 _ _ _ s n o hs => exact (hend hs).elim
    | leave1 _ _ _ s n hs => exact (hend hs).elim
    | again2 _ _ _ s n o hs => exact (hend hs).elim
    | leave2 _ _ _ s n hs => exact (hend hs).elim
  | adv pc k tr s hs ht _ ih =>
    cases h' with
    | done => exact (hend hs).elim
    | adv _ _ _ s' hs' ht' h' => exact ih h'
    | do1 _ _ _ s' hs' ht' => exact absurd (key hs hs' ht ht') (by decide)
    | do2 _ _ _ s' hs' ht' => exact absurd (key hs hs' ht ht') (by decide)
    | measure _ _ _ s' hs' ht' => exact absurd (keyM hs' hs ht' ht) (by decide)
    | again1 _ _ _ s' n o hs' ht' => exact absurd (key hs hs' ht ht') (by decide)
    | leave1 _ _ _ s' n hs' ht' => exact absurd (key hs hs' ht ht') (by decide)
    | again2 _ _ _ s' n o hs' ht' => exact absurd (key hs hs' ht ht') (by decide)
    | leave2 _ _ _ s' n hs' ht' => exact absurd (key hs hs' ht ht') (by decide)
  | do1 pc k tr s hs ht _ ih =>
    cases h' with
    | done => exact (hend hs).elim
    | do1 _ _ _ s' hs' ht' h' => exact ih h'
    | adv _ _ _ s' hs' ht' => exact absurd (key hs hs' ht ht') (by decide)
    | do2 _ _ _ s' hs' ht' => exact absurd (key hs hs' ht ht') (by decide)
    | measure _ _ _ s' hs' ht' => exact absurd (keyM hs' hs ht' ht) (by decide)
    | again1 _ _ _ s' n o hs' ht' => exact absurd (key hs hs' ht ht') (by decide)
    | leave1 _ _ _ s' n hs' ht' => exact absurd (key hs hs' ht ht') (by decide)
    | again2 _ _ _ s' n o hs' ht' => exact absurd (key hs hs' ht ht') (by decide)
    | leave2 _ _ _ s' n hs' ht' => exact absurd (key hs hs' ht ht') (by decide)
  | do2 pc k tr s hs ht _ ih =>
    cases h' with
    | done => exact (hend hs).elim
    | do2 _ _ _ s' hs' ht' h' => exact ih h'
    | adv _ _ _ s' hs' ht' => exact absurd (key hs hs' ht ht') (by decide)
    | do1 _ _ _ s' hs' ht' => exact absurd (key hs hs' ht ht') (by decide)
    | measure _ _ _ s' hs' ht' => exact absurd (keyM hs' hs ht' ht) (by decide)
    | again1 _ _ _ s' n o hs' ht' => exact absurd (key hs hs' ht ht') (by decide)
    | leave1 _ _ _ s' n hs' ht' => exact absurd (key hs hs' ht ht') (by decide)
    | again2 _ _ _ s' n o hs' ht' => exact absurd (key hs hs' ht ht') (by decide)
    | leave2 _ _ _ s' n hs' ht' => exact absurd (key hs hs' ht ht') (by decide)
  | measure pc k tr s hs ht _ ih =>
    cases h' with
    | done => exact (hend hs).elim
    | measure _ _ _ s' hs' ht' h' => rw [ih h']
    | do1 _ _ _ s' hs' ht' => exact absurd (keyM hs hs' ht ht') (by decide)
    | adv _ _ _ s' hs' ht' => exact absurd (keyM hs hs' ht ht') (by decide)
    | do2 _ _ _ s' hs' ht' => exact absurd (keyM hs hs' ht ht') (by decide)
    | again1 _ _ _ s' n o hs' ht' => exact absurd (keyM hs hs' ht ht') (by decide)
    | leave1 _ _ _ s' n hs' ht' => exact absurd (keyM hs hs' ht ht') (by decide)
    | again2 _ _ _ s' n o hs' ht' => exact absurd (keyM hs hs' ht ht') (by decide)
    | leave2 _ _ _ s' n hs' ht' => exact absurd (keyM hs hs' ht ht') (by decide)
  | again1 pc k tr s n o hs ht hn hk ho _ ih =>
    cases h' with
    | done => exact (hend hs).elim
    | again1 _ _ _ s' n' o' hs' ht' hn' hk' ho' h' =>
      have := loopsTo_unique ho ho'
      subst this
      exact ih h'
    | leave1 _ _ _ s' n' hs' ht' hn' hk' h' =>
      have := keyC hs hs' hn hn'
      omega
    | adv _ _ _ s' hs' ht' => exact absurd (key hs hs' ht ht') (by decide)
    | do1 _ _ _ s' hs' ht' => exact absurd (key hs hs' ht ht') (by decide)
    | do2 _ _ _ s' hs' ht' => exact absurd (key hs hs' ht ht') (by decide)
    | measure _ _ _ s' hs' ht' => exact absurd (keyM hs' hs ht' ht) (by decide)
    | again2 _ _ _ s' n o hs' ht' => exact absurd (key hs hs' ht ht') (by decide)
    | leave2 _ _ _ s' n hs' ht' => exact absurd (key hs hs' ht ht') (by decide)
  | leave1 pc k tr s n hs ht hn hk _ ih =>
    cases h' with
    | done => exact (hend hs).elim
    | again1 _ _ _ s' n' o' hs' ht' hn' hk' ho' h' =>
      have := keyC hs hs' hn hn'
      omega
    | leave1 _ _ _ s' n' hs' ht' hn' hk' h' => exact ih h'
    | adv _ _ _ s' hs' ht' => exact absurd (key hs hs' ht ht') (by decide)
    | do1 _ _ _ s' hs' ht' => exact absurd (key hs hs' ht ht') (by decide)
    | do2 _ _ _ s' hs' ht' => exact absurd (key hs hs' ht ht') (by decide)
    | measure _ _ _ s' hs' ht' => exact absurd (keyM hs' hs ht' ht) (by decide)
    | again2 _ _ _ s' n o hs' ht' => exact absurd (key hs hs' ht ht') (by decide)
    | leave2 _ _ _ s' n hs' ht' => exact absurd (key hs hs' ht ht') (by decide)
  | again2 pc k tr s n o hs ht hn hk ho _ ih =>
    cases h' with
    | done => exact (hend hs).elim
    | again2 _ _ _ s' n' o' hs' ht' hn' hk' ho' h' =>
      have := loopsTo_unique ho ho'
      subst this
      exact ih h'
    | leave2 _ _ _ s' n' hs' ht' hn' hk' h' =>
      have := keyC hs hs' hn hn'
      omega
    | adv _ _ _ s' hs' ht' => exact absurd (key hs hs' ht ht') (by decide)
    | do1 _ _ _ s' hs' ht' => exact absurd (key hs hs' ht ht') (by decide)
    | do2 _ _ _ s' hs' ht' => exact absurd (key hs hs' ht ht') (by decide)
    | measure _ _ _ s' hs' ht' => exact absurd (keyM hs' hs ht' ht) (by decide)
    | again1 _ _ _ s' n o hs' ht' => exact absurd (key hs hs' ht ht') (by decide)
    | leave1 _ _ _ s' n hs' ht' => exact absurd (key hs hs' ht ht') (by decide)
  | leave2 pc k tr s n hs ht hn hk _ ih =>
    cases h' with
    | done => exact (hend hs).elim
    | again2 _ _ _ s' n' o' hs' ht' hn' hk' ho' h' =>
      have := keyC hs hs' hn hn'
      omega
    | leave2 _ _ _ s' n' hs' ht' hn' hk' h' => exact ih h'
    | adv _ _ _ s' hs' ht' => exact absurd (key hs hs' ht ht') (by decide)
    | do1 _ _ _ s' hs' ht' => exact absurd (key hs hs' ht ht') (by decide)
    | do2 _ _ _ s' hs' ht' => exact absurd (key hs hs' ht ht') (by decide)
    | measure _ _ _ s' hs' ht' => exact absurd (keyM hs' hs ht' ht) (by decide)
    | again1 _ _ _ s' n o hs' ht' => exact absurd (key hs hs' ht ht') (by decide)
    | leave1 _ _ _ s' n hs' ht' => exact absurd (key hs hs' ht ht') (by decide)

theorem bio_unique {l : List Seq} {q k : Nat} {tr tr' : List Nat} (h : Bio l q k tr) (h' : Bio l q k tr') : tr = tr' := by
  have hend : ∀ {s : Seq}, l[l.length]? = some s → False := by
    intro s hs
    have := (List.getElem?_eq_some_iff.mp hs).1
    omega
  have same : ∀ {i : Nat} {s s' : Seq}, l[i]? = some s → l[i]? = some s' → s = s' := by
    intro i s s' h1 h2
    rw [h1] at h2
    exact Option.some.inj h2
  induction h generalizing tr' with
  | done k =>
    cases h' with
    | done => rfl
    | run _ _ _ s hs => exact (hend hs).elim
    | again _ _ _ s o hs => exact (hend hs).elim
    | leave _ _ _ s hs => exact (hend hs).elim
  | run q k tr s hs ht _ ih =>
    cases h' with
    | done => exact (hend hs).elim
    | run _ _ _ s' hs' ht' h' => rw [ih h']
    | again _ _ _ s' o hs' ht' => cases same hs hs'; exact absurd ht' ht
    | leave _ _ _ s' hs' ht' => cases same hs hs'; exact absurd ht' ht
  | again q k tr s o hs ht hk ho _ ih =>
    cases h' with
    | done => exact (hend hs).elim
    | run _ _ _ s' hs' ht' h' => cases same hs hs'; exact absurd ht ht'
    | again _ _ _ s' o' hs' ht' hk' ho' h' =>
      cases same hs hs'
      obtain rfl : o = o' := by omega
      exact ih h'
    | leave _ _ _ s' hs' ht' hk' => cases same hs hs'; omega
  | leave q k tr s hs ht hk _ ih =>
    cases h' with
    | done => exact (hend hs).elim
    | run _ _ _ s' hs' ht' h' => cases same hs hs'; exact absurd ht ht'
    | again _ _ _ s' o' hs' ht' hk' ho' h' => cases same hs hs'; omega
    | leave _ _ _ s' hs' ht' hk' h' => exact ih h'

theorem protocol_unique {f : Int → Nat} {ts : List (Converted × List Seq)} {tr tr' : List (Nat × Nat)}
    (h : Protocol f ts tr) (h' : Protocol f ts tr') : tr = tr' := by
  induction h generalizing tr' with
  | done => cases h'; rfl
  | plain c seqs rest tr1 tr2 hl hb _ ih =>
    cases h' with
    | plain _ _ _ a b hl' hb' h' => rw [bio_unique hb hb', ih h']
    | loops _ _ _ a b hl' hb' h' => rw [hl] at hl'; cases hl'
  | loops c seqs rest tr1 tr2 hl hb _ ih =>
    cases h' with
    | plain _ _ _ a b hl' hb' h' => rw [hl] at hl'; cases hl'
    | loops _ _ _ a b hl' hb' h' => rw [bio_unique hb hb', ih h']

theorem bio_pos {l : List Seq} {q k : Nat} {tr : List Nat} (h : Bio l q k tr) (s : Seq) (hs : l[q]? = some s)
    (ht : s.ctrlType ≠ "Loop") : 0 < tr.length := by
  cases h with
  | done => rw [List.getElem?_eq_none (le_refl _)] at hs; cases hs
  | run => simp
  | again _ _ _ s' o hs' ht' => rw [hs] at hs'; cases hs'; exact absurd ht' ht
  | leave _ _ _ s' hs' ht' => rw [hs] at hs'; cases hs'; exact absurd ht' ht

theorem length_rounds {α : Type} (n : Nat) (l : List α) : (List.replicate n l).flatten.length = n * l.length := by
  simp

/-- more rounds make a longer run -/
theorem protocol_le {f g : Int → Nat} (hfg : ∀ n, f n ≤ g n) {ts : List (Converted × List Seq)} {tr tr' : List (Nat × Nat)}
    (h : Protocol f ts tr) (h' : Protocol g ts tr') : tr.length ≤ tr'.length := by
  induction h generalizing tr' with
  | done => exact Nat.zero_le _
  | plain c seqs rest tr1 tr2 hl hb _ ih =>
    cases h' with
    | plain _ _ _ a b hl' hb' h' =>
      have := ih h'
      rw [bio_unique hb hb']
      simp only [List.length_append]
      omega
    | loops _ _ _ a b hl' hb' h' => rw [hl] at hl'; cases hl'
  | loops c seqs rest tr1 tr2 hl hb _ ih =>
    cases h' with
    | plain _ _ _ a b hl' hb' h' => rw [hl] at hl'; cases hl'
    | loops _ _ _ a b hl' hb' h' =>
      have := ih h'
      have := Nat.mul_le_mul_right a.length (hfg c.tech.numLoops)
      rw [bio_unique hb hb']
      simp only [List.length_append, length_rounds, List.length_map]
      omega

theorem protocol_lt {f g : Int → Nat} (hfg : ∀ n, f n ≤ g n) {ts : List (Converted × List Seq)} {tr tr' : List (Nat × Nat)}
    (h : Protocol f ts tr) (h' : Protocol g ts tr') (c : Converted × List Seq) (hc : c ∈ ts) (hl : c.1.tech.loops = true)
    (hlt : f c.1.tech.numLoops < g c.1.tech.numLoops) (s : Seq) (hs : c.2[0]? = some s) (ht : s.ctrlType ≠ "Loop") :
    tr.length < tr'.length := by
  induction h generalizing tr' with
  | done => cases hc
  | plain c' seqs rest tr1 tr2 hl1 hb _ ih =>
    rcases List.mem_cons.mp hc with rfl | hc
    · rw [hl1] at hl; cases hl
    cases h' with
    | plain _ _ _ a b hl' hb' h' =>
      have := ih h' hc
      rw [bio_unique hb hb']
      simp only [List.length_append]
      omega
    | loops _ _ _ a b hl' hb' h' => rw [hl1] at hl'; cases hl'
  | loops c' seqs rest tr1 tr2 hl1 hb h1 ih =>
    cases h' with
    | plain _ _ _ a b hl' hb' h' => rw [hl1] at hl'; cases hl'
    | loops _ _ _ a b hl' hb' h' =>
      rw [bio_unique hb hb']
      simp only [List.length_append, length_rounds, List.length_map]
      rcases List.mem_cons.mp hc with rfl | hc
      · have hpos : 0 < a.length := bio_pos hb' s hs ht
        have := protocol_le hfg h1 h'
        have := Nat.mul_lt_mul_of_pos_right hlt hpos
        simp only at this
        omega
      · have := ih h' hc
        have := Nat.mul_le_mul_right a.length (hfg c'.tech.numLoops)
        omega

/-! ### the whole procedure -/

theorem tiling_offset {pos num : Nat} {rest : List Step} {ts : List Technique} (h : Tiling pos num rest ts) :
    ∀ t ∈ ts, pos ≤ t.offset := by
  induction h with
  | done => intro t ht; cases ht
  | plain pos num t rest ts hl ho hn hne _ ih =>
    intro u hu
    rcases List.mem_cons.mp hu with rfl | hu
    · omega
    · have := ih u hu; omega
  | loop pos num t d l rest ts hl ho hn hd hc hk _ ih =>
    intro u hu
    rcases List.mem_cons.mp hu with rfl | hu
    · omega
    · have := ih u hu; omega

theorem translate_head (t : Technique) (ts : List Technique) (hts : ∀ u ∈ ts, t.offset + t.steps.length ≤ u.offset) (p : Nat)
    (hp : p < t.steps.length) : translate (t :: ts) (t.offset + p) = (seqsAt t.steps p).map (fun q => (t.num, q)) := by
  unfold translate
  rw [List.flatMap_cons, if_pos ⟨by omega, by omega⟩, Nat.add_sub_cancel_left]
  have : ts.flatMap (fun u => if u.offset ≤ t.offset + p ∧ t.offset + p < u.offset + u.steps.length then
      (seqsAt u.steps (t.offset + p - u.offset)).map (fun q => (u.num, q)) else []) = [] := by
    rw [List.flatMap_eq_nil_iff]
    intro u hu
    have := hts u hu
    rw [if_neg (by omega)]
  rw [this, List.append_nil]

theorem translate_tail (t : Technique) (ts : List Technique) (p : Nat) (hp : t.offset + t.steps.length ≤ p) :
    translate (t :: ts) p = translate ts p := by
  unfold translate
  rw [List.flatMap_cons, if_neg (by omega), List.nil_append]

theorem translate_pass (t : Technique) (ts : List Technique) (hts : ∀ u ∈ ts, t.offset + t.steps.length ≤ u.offset)
    (pre : List Nat) (hpre : ∀ i ∈ pre, i < t.steps.length) :
    (pre.map (t.offset + ·)).flatMap (translate (t :: ts)) =
      (pre.flatMap (seqsAt t.steps)).map (fun q => (t.num, q)) := by
  induction pre with
  | nil => rfl
  | cons p pre ih =>
    rw [List.map_cons, List.flatMap_cons, List.flatMap_cons, List.map_append,
      ih (fun i hi => hpre i (List.mem_cons_of_mem _ hi)), translate_head t ts hts p (hpre p (List.mem_cons_self ..))]

theorem translate_rest (t : Technique) (ts : List Technique) (tr : List Nat)
    (htr : ∀ p ∈ tr, t.offset + t.steps.length ≤ p) : tr.flatMap (translate (t :: ts)) = tr.flatMap (translate ts) := by
  induction tr with
  | nil => rfl
  | cons p tr ih =>
    rw [List.flatMap_cons, List.flatMap_cons, ih (fun i hi => htr i (List.mem_cons_of_mem _ hi)),
      translate_tail t ts p (htr p (List.mem_cons_self ..))]

theorem flatMap_rounds {α β : Type} (f : α → List β) (n : Nat) (l : List α) :
    (List.replicate n l).flatten.flatMap f = (List.replicate n (l.flatMap f)).flatten := by
  induction n with
  | zero => rfl
  | succ n ih => simp only [List.replicate_succ, List.flatten_cons, List.flatMap_append, ih]

/-- the rounds of an outer loop -/
theorem rounds {steps : List Step} {a : Nat} {t : Technique} {seqs : List Seq} {d l : Step} (lp : Looped steps a t d l)
    (pl : Placed steps (a + 1) t seqs) {n : Int} (hn : Count l n) (pre : List Nat) (hpass : Pass steps (a + 1) t seqs 0 0 pre)
    (tr : List Nat) (hrest : Mac steps (a + 1 + t.steps.length + 1) ⟨0, 0⟩ tr) (m : Nat) :
    ∀ x, x + m + 1 = asked n →
      Mac steps (a + 1) ⟨x, 0⟩ ((List.replicate (m + 1) (pre.map (a + 1 + ·))).flatten ++ tr) := by
  have hlaps : ∀ x, laps t x 0 = ⟨x, 0⟩ := fun x => by unfold laps; rw [lp.inner]; rfl
  induction m with
  | zero =>
    intro x hx
    unfold asked at hx
    have := hpass.2.1 x tr (by
      rw [hlaps]
      exact .leave1 _ _ _ l n lp.closes lp.loop1 hn (by simp only; omega) hrest)
    rw [hlaps] at this
    simpa using this
  | succ m ih =>
    intro x hx
    have hrec := ih (x + 1) (by omega)
    unfold asked at hx
    have := hpass.2.1 x _ (by
      rw [hlaps]
      exact .again1 _ _ _ l n a lp.closes lp.loop1 hn (by simp only; omega) (lp.loopsTo pl.nested) hrec)
    rw [hlaps] at this
    rw [List.replicate_succ, List.flatten_cons, List.append_assoc]
    exact this

theorem whole (conv : List (Converted × List Seq)) : ∀ (steps before rest : List Step) (num : Nat), steps = before ++ rest →
    Tiling before.length num rest (conv.map (fun c => c.1.tech)) →
    (∀ c ∈ conv, ∀ a, Within steps a c.1.tech → Placed steps a c.1.tech c.2) →
    ∃ tr, (∀ p ∈ tr, before.length ≤ p) ∧ Mac steps before.length ⟨0, 0⟩ tr ∧
      Protocol asked conv (tr.flatMap (translate (conv.map (fun c => c.1.tech)))) := by
  induction conv with
  | nil =>
    intro steps before rest num hst ht _
    cases ht
    rw [List.append_nil] at hst
    subst hst
    exact ⟨[], by simp, .done _, .done⟩
  | cons c conv ih =>
    intro steps before rest num hst ht hpl
    obtain ⟨cv, seqs⟩ := c
    rw [List.map_cons] at ht ⊢
    generalize htt : cv.tech = t at ht
    cases ht with
    | plain _ _ _ rest' _ hl ho hn hne h =>
      have hw : Within steps before.length t := by rw [hst]; exact within_of_append before rest' t ho
      have pl := hpl (cv, seqs) (List.mem_cons_self ..) before.length (by rw [htt]; exact hw)
      simp only [htt] at pl
      obtain ⟨pre, h0, h1, h2⟩ := pass_exists pl t.steps.length 0 (by omega)
      have hlaps : laps t 0 0 = ⟨0, 0⟩ := by unfold laps; rw [hl]; rfl
      obtain ⟨tr, t1, t2, t3⟩ := ih steps (before ++ t.steps) rest' (num + 1) (by rw [hst, List.append_assoc])
        (by rw [List.length_append]; exact h) (fun c hc => hpl c (List.mem_cons_of_mem _ hc))
      rw [List.length_append] at t1 t2
      refine ⟨pre.map (before.length + ·) ++ tr, ?_, ?_, ?_⟩
      · intro p hp
        rcases List.mem_append.mp hp with hp | hp
        · obtain ⟨i, _, rfl⟩ := List.mem_map.mp hp
          omega
        · have := t1 p hp; omega
      · have := h1 0 tr (by rw [hlaps]; exact t2)
        rw [hlaps] at this
        exact this
      · rw [List.flatMap_append, ← ho, translate_pass t _ (fun u hu => by
          have := tiling_offset h u hu; omega) pre h0, translate_rest t _ tr (fun p hp => by have := t1 p hp; omega)]
        have := Protocol.plain (rounds := asked) cv seqs conv _ _ (by rw [htt]; exact hl) h2 t3
        rw [htt] at this
        exact this
    | loop _ _ _ d l rest' _ hl ho hn hd hc hk h =>
      have lp : Looped steps before.length t d l := by rw [hst]; exact looped_of_append before rest' t d l hl ho hd hc
      have pl := hpl (cv, seqs) (List.mem_cons_self ..) (before.length + 1) (by rw [htt]; exact lp.body)
      simp only [htt] at pl
      have hpass := pass_exists pl t.steps.length 0 (by omega)
      obtain ⟨pre, hpre⟩ := hpass
      obtain ⟨tr, t1, t2, t3⟩ := ih steps (before ++ (d :: (t.steps ++ [l]))) rest' (num + 2)
        (by rw [hst]; simp) (by
          have e : (before ++ (d :: (t.steps ++ [l]))).length = before.length + t.steps.length + 2 := by simp; omega
          rw [e]; exact h) (fun c hc => hpl c (List.mem_cons_of_mem _ hc))
      have e : (before ++ (d :: (t.steps ++ [l]))).length = before.length + 1 + t.steps.length + 1 := by simp; omega
      rw [e] at t1 t2
      have hmac := rounds lp pl (count_of_loopCount hk) pre hpre tr t2 (asked t.numLoops - 1) 0 (by unfold asked; omega)
      have ea : asked t.numLoops - 1 + 1 = asked t.numLoops := by unfold asked; omega
      rw [ea] at hmac
      refine ⟨(List.replicate (asked t.numLoops) (pre.map (before.length + 1 + ·))).flatten ++ tr, ?_, ?_, ?_⟩
      · intro p hp
        rcases List.mem_append.mp hp with hp | hp
        · obtain ⟨b, hb, hp⟩ := List.mem_flatten.mp hp
          rw [List.eq_of_mem_replicate hb] at hp
          obtain ⟨i, _, rfl⟩ := List.mem_map.mp hp
          omega
        · have := t1 p hp; omega
      · exact .do1 _ _ _ d lp.opens hd hmac
      · rw [List.flatMap_append, flatMap_rounds, ← ho, translate_pass t _ (fun u hu => by
          have := tiling_offset h u hu; omega) pre hpre.1, translate_rest t _ tr (fun p hp => by have := t1 p hp; omega)]
        have := Protocol.loops (rounds := asked) cv seqs conv _ _ (by rw [htt]; exact hl) hpre.2.2 t3
        rw [htt] at this
        exact this

/-- C160: the cycler measures the steps of the procedure in the order `tr`, and the techniques of the converted protocol run
the sequences of these steps in the same order and as often, provided that a looping technique is run as often as its loop
step asks for.  (Missing: that the Biologic cycler does run it that often, see `C160_outer_violated`.) -/
theorem C160_order_partial (cfg : Config) (steps : List Step) (r : List (Converted × List Seq) × List Beep.CycleRules.Rules)
    (h : convert cfg steps = .ok r) :
    ∃ tr, Mac steps.dropLast 0 ⟨0, 0⟩ tr ∧ Protocol asked r.1 (tr.flatMap (translate (r.1.map (fun c => c.1.tech)))) := by
  obtain ⟨body, last, hm, _, hp, _⟩ := convert_parts cfg steps r h
  have hne : body ≠ [] := by
    rintro rfl
    have : partition [] = .error .indexError := by decide
    rw [this] at hp
    cases hp
  have ht : Tiling 0 1 body (r.1.map (fun c => c.1.tech)) := by
    rcases Props.MtbPartition.C24_cover body hne with ⟨ts, h1, h2⟩ | ⟨⟨e, h1⟩, _⟩
    · rw [hp] at h1
      cases h1
      exact h2
    · rw [hp] at h1
      cases h1
  obtain ⟨tr, _, t2, t3⟩ := whole r.1 body [] body 1 rfl ht (fun c hc a hw => placed cfg steps r h c hc body a hw)
  exact ⟨tr, mac_congr (mapped_same cfg steps body last hm) t2, t3⟩

/-- the order in which a procedure is measured, and the order in which a protocol is run, are unique -/
theorem C160_unique (steps : List Step) (rounds : Int → Nat) (ts : List (Converted × List Seq)) :
    (∀ tr tr', Mac steps 0 ⟨0, 0⟩ tr → Mac steps 0 ⟨0, 0⟩ tr' → tr = tr') ∧
    (∀ tr tr', Protocol rounds ts tr → Protocol rounds ts tr' → tr = tr') :=
  ⟨fun _ _ => mac_unique, fun _ _ => protocol_unique⟩

theorem protocol_plain {f g : Int → Nat} {ts : List (Converted × List Seq)} {tr : List (Nat × Nat)}
    (hl : ∀ c ∈ ts, c.1.tech.loops = false) (h : Protocol f ts tr) : Protocol g ts tr := by
  induction h with
  | done => exact .done
  | plain c seqs rest a b h1 h2 _ ih => exact .plain c seqs rest a b h1 h2 (ih (fun c hc => hl c (List.mem_cons_of_mem _ hc)))
  | loops c seqs rest a b h1 h2 _ ih => 
    have := hl (c, seqs) (List.mem_cons_self ..)
    rw [h1] at this
    cases this

/-- C160: a procedure without loops inside loops is run by the Biologic cycler in the same order and as often. -/
theorem C160_single_loops (cfg : Config) (steps : List Step) (r : List (Converted × List Seq) × List Beep.CycleRules.Rules)
    (h : convert cfg steps = .ok r) (hl : ∀ c ∈ r.1, c.1.tech.loops = false) (tr : List Nat)
    (hm : Mac steps.dropLast 0 ⟨0, 0⟩ tr) (btr : List (Nat × Nat)) :
    Protocol onCycler r.1 btr ↔ btr = tr.flatMap (translate (r.1.map (fun c => c.1.tech))) := by
  obtain ⟨tr', h1, h2⟩ := C160_order_partial cfg steps r h
  cases mac_unique hm h1
  have := protocol_plain (g := onCycler) hl h2
  constructor
  · intro hb
    exact protocol_unique hb this
  · rintro rfl
    exact this

/-- C160 fails for loops inside loops: the count of the outer loop is not reduced by one, so that the Biologic cycler runs
more sequences than the procedure asks for. -/
theorem C160_outer_violated (cfg : Config) (steps : List Step) (r : List (Converted × List Seq) × List Beep.CycleRules.Rules)
    (h : convert cfg steps = .ok r) (c : Converted × List Seq) (hc : c ∈ r.1) (hl : c.1.tech.loops = true)
    (hn : 1 ≤ c.1.tech.numLoops) (s : Seq) (hs : c.2[0]? = some s) (hst : s.ctrlType ≠ "Loop") (tr : List Nat)
    (hm : Mac steps.dropLast 0 ⟨0, 0⟩ tr) (btr : List (Nat × Nat)) (hb : Protocol onCycler r.1 btr) :
    (tr.flatMap (translate (r.1.map (fun c => c.1.tech)))).length < btr.length := by
  obtain ⟨tr', h1, h2⟩ := C160_order_partial cfg steps r h
  cases mac_unique hm h1
  refine protocol_lt ?_ h2 hb c hc hl ?_ s hs hst
  · intro n
    unfold asked onCycler
    omega
  · unfold asked onCycler
    omega

open Beep.Props.MtbPartition in
/-- a procedure: charge three times, then once more -/
def flat : List Step := [mk "Do 1", chg, mk "AdvCycle", mk "Loop 1", chg, mk "End"]

open Beep.Props.MtbPartition in
/-- a procedure with a loop inside a loop, each with count three -/
def nested : List Step := [mk "Do 1", mk "Do 2", chg, mk "Loop 2", mk "AdvCycle", mk "Loop 1", mk "End"]

open Beep.Props.MtbPartition in
/-- the first is converted to one technique whose loop goes back twice -/
example : (convert noLimits flat).map (fun r => r.1.map (fun c => (c.1.tech.loops, c.2.map Seq.ctrlType,
    c.2.map Seq.repeats))) = .ok [(false, ["CC", "Loop", "CC"], [0, 2, 0])] := by decide +kernel

/-- it is measured in the order charge, charge, charge, charge -/
example : Mac flat.dropLast 0 ⟨0, 0⟩ [1, 1, 1, 4] := by
  have hc : Count (Beep.Props.MtbPartition.mk "Loop 1") 3 := ⟨_, rfl, by decide +kernel⟩
  have hto : LoopsTo flat.dropLast 0 3 := by
    refine ⟨by omega, "Do 1", "Loop 1", by simp, rfl, rfl, ?_⟩
    intro j h1 h2
    have : j = 1 ∨ j = 2 := by omega
    rcases this with rfl | rfl <;> decide
  have hm : IsMeasure Beep.Props.MtbPartition.chg := Or.inr (Or.inl rfl)
  refine .do1 _ _ _ _ rfl rfl ?_
  refine .measure _ _ _ _ rfl hm (.adv _ _ _ _ rfl rfl (.again1 _ _ _ _ 3 0 rfl rfl hc (by decide) hto ?_))
  refine .measure _ _ _ _ rfl hm (.adv _ _ _ _ rfl rfl (.again1 _ _ _ _ 3 0 rfl rfl hc (by decide) hto ?_))
  refine .measure _ _ _ _ rfl hm (.adv _ _ _ _ rfl rfl (.leave1 _ _ _ _ 3 rfl rfl hc (by decide) ?_))
  exact .measure _ _ _ _ rfl hm (.done _)

open Beep.Props.MtbPartition in
/-- the second is converted to one looping technique, which goes back three times; the loop inside goes back twice -/
example : (convert noLimits nested).map (fun r => r.1.map (fun c => (c.1.tech.loops, c.1.tech.numLoops,
    c.2.map (fun s => (s.ctrlType, s.repeats))))) = .ok [(true, 3, [("CC", 0), ("Loop", 2)])] := by decide +kernel

end Beep.Props.LoopRuns
