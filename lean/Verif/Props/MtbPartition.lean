import Verif.Proof.Base
import Verif.Proof.Py
import Verif.Spec.MaccorToBiologic
/-
C24: the techniques of a converted procedure cover it.
-/
namespace Beep.Props.MtbPartition
open Beep Beep.MtB Beep.Spec.MtB

/-- what is known about a recorded range -/
def RangeOk (steps : List Step) (r : Nat × Nat × Option Int) : Prop :=
  r.2.1 ≤ steps.length ∧ r.1 < r.2.1 ∧
  ∀ n, r.2.2 = some n → r.1 + 2 ≤ r.2.1 ∧ (∃ d, steps[r.1]? = some d ∧ d.stepType = "Do 1") ∧
    ∃ l, steps[r.2.1 - 1]? = some l ∧ l.stepType = "Loop 1" ∧ loopCount l = .ok n

/-- the ranges are consecutive from `a` to `b` -/
def Chain : Nat → List (Nat × Nat × Option Int) → Nat → Prop
  | a, [], b => a = b
  | a, r :: rs, b => r.1 = a ∧ Chain r.2.1 rs b

theorem chain_append (a : Nat) (rs : List (Nat × Nat × Option Int)) (b : Nat) (r : Nat × Nat × Option Int)
    (h : Chain a rs b) (hr : r.1 = b) : Chain a (rs ++ [r]) r.2.1 := by
  induction rs generalizing a with
  | nil => simp only [Chain] at h; subst h; exact ⟨hr, rfl⟩
  | cons x xs ih => exact ⟨h.1, ih _ h.2⟩

/-- invariant of the scan after `i` steps -/
structure Inv (steps : List Step) (st : PState) (i : Nat) : Prop where
  ranges : ∀ r ∈ st.ranges, RangeOk steps r
  chain : Chain 0 st.ranges st.techStart
  start : st.techStart ≤ i
  opened : ∀ l, st.loopStart = some l → st.techStart ≤ l ∧ l < i ∧
    ∃ d, steps[l]? = some d ∧ d.stepType = "Do 1"
  closed : st.loopStart = none → ∀ (j : Nat) s, j < i → steps[j]? = some s → s.stepType = "Do 1" →
    ∃ (k : Nat) (s' : Step), j < k ∧ k < i ∧ steps[k]? = some s' ∧ s'.stepType = "Loop 1"
  inLoop : st.inLoop = true → st.loopStart ≠ none

/-- reasons for a refused procedure: an inner loop marker outside an outer loop, or an
unreadable loop count -/
def Refused (steps : List Step) : Prop :=
  (∃ (i : Nat) (s : Step), steps[i]? = some s ∧ s.stepType = "Do 2" ∧
    ∀ (j : Nat) d, j < i → steps[j]? = some d → d.stepType = "Do 1" →
      ∃ (k : Nat) (l : Step), j < k ∧ k < i ∧ steps[k]? = some l ∧ l.stepType = "Loop 1") ∨
  ∃ (i : Nat) (s : Step) (e : Err), steps[i]? = some s ∧ s.stepType = "Loop 1" ∧ loopCount s = .error e

theorem partStep_inv (steps : List Step) (st : PState) (i : Nat) (s : Step) (hs : steps[i]? = some s)
    (inv : Inv steps st i) :
    (∃ st', partStep st i s = .ok st' ∧ Inv steps st' (i + 1)) ∨
    ((∃ e, partStep st i s = .error e) ∧ Refused steps) := by
  have hi := (List.getElem?_eq_some_iff.mp hs).1
  unfold partStep
  by_cases h1 : s.stepType = "Do 1"
  · rw [if_pos h1]
    refine Or.inl ⟨_, rfl, inv.ranges, inv.chain, by have := inv.start; simp only; omega, ?_, ?_, ?_⟩
    · intro l hl
      cases hl
      exact ⟨inv.start, by omega, s, hs, h1⟩
    · intro h; cases h
    · intro _ h; cases h
  · rw [if_neg h1]
    by_cases h2 : s.stepType = "Do 2"
    · rw [if_pos h2]
      cases hl : st.loopStart with
      | none =>
        refine Or.inr ⟨⟨_, rfl⟩, Or.inl ⟨i, s, hs, h2, ?_⟩⟩
        intro j d hj hd ht
        exact inv.closed hl j d hj hd ht
      | some l =>
        refine Or.inl ⟨_, rfl, inv.ranges, inv.chain, by have := inv.start; simp only; omega, ?_, ?_, ?_⟩
        · intro l' hl'
          obtain ⟨a, b, c⟩ := inv.opened l' (hl.trans hl')
          exact ⟨a, by omega, c⟩
        · intro h; cases h
        · intro _ h; cases h
    · rw [if_neg h2]
      by_cases h3 : s.stepType = "Loop 1" ∧ st.inLoop = true
      · rw [if_pos h3]
        cases hl : st.loopStart with
        | none => exact absurd hl (inv.inLoop h3.2)
        | some l =>
          obtain ⟨ha, hb, hd⟩ := inv.opened l hl
          simp only
          cases hc : loopCount s with
          | error e => exact Or.inr ⟨⟨e, rfl⟩, Or.inr ⟨i, s, e, hs, h3.1, hc⟩⟩
          | ok n =>
            refine Or.inl ⟨_, rfl, ?_, ?_, ?_, ?_, ?_, ?_⟩
            · intro r hr
              simp only [List.mem_append, List.mem_singleton] at hr
              rcases hr with (hr | hr) | hr
              · exact inv.ranges r hr
              · by_cases hne : st.techStart ≠ l
                · rw [if_pos hne, List.mem_singleton] at hr
                  subst hr
                  exact ⟨by simp only; omega, by simp only; omega, by intro n h; cases h⟩
                · rw [if_neg hne] at hr; cases hr
              · subst hr
                refine ⟨by simp only; omega, by simp only; omega, ?_⟩
                intro n' hn'
                cases hn'
                exact ⟨by simp only; omega, hd, s, hs, h3.1, hc⟩
            · show Chain 0 (_ ++ [(l, i + 1, some n)]) (i + 1)
              refine chain_append 0 _ l _ ?_ rfl
              by_cases hne : st.techStart ≠ l
              · rw [if_pos hne]
                exact chain_append 0 _ st.techStart (st.techStart, l, none) inv.chain rfl
              · rw [if_neg hne, List.append_nil]
                push Not at hne
                rw [← hne]; exact inv.chain
            · simp
            · intro l' h; cases h
            · intro _ j d hj hd' ht
              refine ⟨i, s, ?_, by omega, hs, h3.1⟩
              by_contra hji
              have : j = i := by omega
              subst this
              rw [hs] at hd'; cases hd'
              exact h1 ht
            · intro h; cases h
      · rw [if_neg h3]
        refine Or.inl ⟨_, rfl, inv.ranges, inv.chain, by have := inv.start; omega, ?_, ?_, inv.inLoop⟩
        · intro l hl
          obtain ⟨a, b, c⟩ := inv.opened l hl
          exact ⟨a, by omega, c⟩
        · intro hn j d hj hd ht
          by_cases hji : j = i
          · subst hji
            rw [hs] at hd; cases hd
            exact absurd ht h1
          · obtain ⟨k, s', a, b, c, e⟩ := inv.closed hn j d (by omega) hd ht
            exact ⟨k, s', a, by omega, c, e⟩

theorem partLoop_inv (steps : List Step) (rest : List Step) (st : PState) (i : Nat)
    (hrest : steps.drop i = rest) (inv : Inv steps st i) (hi : i ≤ steps.length) :
    (∃ st', partLoop st i rest = .ok st' ∧ Inv steps st' steps.length) ∨
    ((∃ e, partLoop st i rest = .error e) ∧ Refused steps) := by
  induction rest generalizing st i with
  | nil =>
    have : steps.length ≤ i := List.drop_eq_nil_iff.mp hrest
    have : i = steps.length := by omega
    subst this
    exact Or.inl ⟨st, rfl, inv⟩
  | cons s rest ih =>
    have hs : steps[i]? = some s := by
      have := congrArg List.head? hrest
      rwa [List.head?_drop] at this
    have hlt := (List.getElem?_eq_some_iff.mp hs).1
    have hd : steps.drop (i + 1) = rest := by
      have := congrArg List.tail hrest
      rwa [List.tail_drop] at this
    rcases partStep_inv steps st i s hs inv with ⟨st', h1, h2⟩ | ⟨⟨e, h1⟩, h2⟩
    · rw [partLoop]
      simp only [h1]
      exact ih st' (i + 1) hd h2 (by omega)
    · refine Or.inr ⟨⟨e, ?_⟩, h2⟩
      rw [partLoop]
      simp only [h1]
      rfl

theorem drop_take_split (steps : List Step) (a b : Nat) (hab : a ≤ b) (hb : b ≤ steps.length) :
    steps.drop a = (steps.take b).drop a ++ steps.drop b := by
  conv_lhs => rw [← List.take_append_drop b steps]
  rw [List.drop_append_of_le_length (by rw [List.length_take]; omega)]

theorem build_tiling (steps : List Step) (rs : List (Nat × Nat × Option Int)) (prev num : Nat)
    (hr : ∀ r ∈ rs, RangeOk steps r) (hc : Chain prev rs steps.length) :
    ∃ ts, buildTechniques steps prev num rs = .ok ts ∧ Tiling prev num (steps.drop prev) ts := by
  induction rs generalizing prev num with
  | nil =>
    simp only [Chain] at hc
    subst hc
    exact ⟨[], rfl, by rw [List.drop_length]; exact .done _ _⟩
  | cons r rs ih =>
    obtain ⟨s, e, lp⟩ := r
    obtain ⟨hs, hc'⟩ := hc
    simp only at hs hc'
    subst hs
    obtain ⟨h1, h2, h3⟩ := hr _ (List.mem_cons_self ..)
    simp only at h1 h2 h3
    unfold buildTechniques
    rw [if_neg (by omega)]
    cases lp with
    | none =>
      obtain ⟨ts, e1, e2⟩ := ih e (num + 1) (fun r hr' => hr r (List.mem_cons_of_mem _ hr')) hc'
      simp only [e1]
      refine ⟨_, rfl, ?_⟩
      rw [drop_take_split steps s e (by omega) h1]
      have hlen : ((steps.take e).drop s).length = e - s := by
        rw [List.length_drop, List.length_take]; omega
      refine Tiling.plain s num
        { num := num, steps := (steps.take e).drop s, offset := s, loops := false, numLoops := 0 }
        _ ts rfl rfl rfl ?_ ?_
      · intro h
        simp only at h
        rw [h] at hlen
        simp at hlen
        omega
      · show Tiling (s + ((steps.take e).drop s).length) _ _ _
        rw [hlen, show s + (e - s) = e by omega]
        exact e2
    | some n =>
      obtain ⟨g1, ⟨d, hd, hdt⟩, l, hl, hlt, hlc⟩ := h3 n rfl
      obtain ⟨ts, e1, e2⟩ := ih e (num + 2) (fun r hr' => hr r (List.mem_cons_of_mem _ hr')) hc'
      simp only [e1]
      refine ⟨_, rfl, ?_⟩
      have hd1 : steps.drop s = d :: steps.drop (s + 1) := by
        obtain ⟨hlt', he⟩ := List.getElem?_eq_some_iff.mp hd
        rw [← he]; exact List.drop_eq_getElem_cons hlt'
      have hl1 : steps.drop (e - 1) = l :: steps.drop e := by
        obtain ⟨hlt', he⟩ := List.getElem?_eq_some_iff.mp hl
        rw [← he, List.drop_eq_getElem_cons hlt', show e - 1 + 1 = e by omega]
      have hsplit := drop_take_split steps (s + 1) (e - 1) (by omega) (by omega)
      rw [hd1, hsplit, hl1]
      have hlen : ((steps.take (e - 1)).drop (s + 1)).length = e - s - 2 := by
        rw [List.length_drop, List.length_take]; omega
      refine Tiling.loop s num
        { num := num, steps := (steps.take (e - 1)).drop (s + 1), offset := s + 1, loops := true, numLoops := n }
        d l _ ts rfl rfl rfl hdt hlt hlc ?_
      show Tiling (s + ((steps.take (e - 1)).drop (s + 1)).length + 2) _ _ _
      rw [hlen, show s + (e - s - 2) + 2 = e by omega]
      exact e2

theorem chain_head {a b : Nat} {rs : List (Nat × Nat × Option Int)} (h : Chain a rs b) (r : Nat × Nat × Option Int)
    (hr : rs.head? = some r) : r.1 = a := by
  cases rs with
  | nil => cases hr
  | cons x xs => simp at hr; subst hr; exact h.1

theorem chain_last {a b : Nat} {rs : List (Nat × Nat × Option Int)} (h : Chain a rs b) (r : Nat × Nat × Option Int)
    (hr : rs.getLast? = some r) : r.2.1 = b := by
  induction rs generalizing a with
  | nil => cases hr
  | cons x xs ih =>
    cases xs with
    | nil => simp at hr; subst hr; exact h.2
    | cons y ys => rw [List.getLast?_cons_cons] at hr; exact ih h.2 hr

/-- C24: every nonempty step list is either partitioned into techniques that tile it, or
refused for one of the two stated reasons. -/
theorem C24_cover (steps : List Step) (hne : steps ≠ []) :
    (∃ ts, partition steps = .ok ts ∧ Tiling 0 1 steps ts) ∨
    ((∃ e, partition steps = .error e) ∧ Refused steps) := by
  have inv0 : Inv steps { ranges := [], loopStart := none, techStart := 0, inLoop := false } 0 :=
    ⟨by simp, rfl, by simp, by simp, by intro _ j s hj; omega, by simp⟩
  rcases partLoop_inv steps steps _ 0 rfl inv0 (by omega) with ⟨st, h1, inv⟩ | ⟨⟨e, h1⟩, h2⟩
  · left
    unfold partition
    simp only [h1]
    have hlen : 0 < steps.length := List.length_pos_iff.mpr hne
    obtain ⟨rs, hrs⟩ : ∃ rs, rs = (if st.techStart < steps.length then
      st.ranges ++ [(st.techStart, steps.length, none)] else st.ranges) := ⟨_, rfl⟩
    have hok : ∀ r ∈ rs, RangeOk steps r := by
      rw [hrs]
      split
      · rename_i hlt
        intro r hr
        rcases List.mem_append.mp hr with hr | hr
        · exact inv.ranges r hr
        · rw [List.mem_singleton] at hr
          subst hr
          exact ⟨le_refl _, hlt, by intro n h; cases h⟩
      · exact inv.ranges
    have hch : Chain 0 rs steps.length := by
      rw [hrs]
      split
      · exact chain_append 0 _ st.techStart (st.techStart, steps.length, none) inv.chain rfl
      · have := inv.start
        have : st.techStart = steps.length := by omega
        rw [← this]; exact inv.chain
    simp only [bind, Except.bind]
    rw [← hrs]
    cases rs with
    | nil => simp only [Chain] at hch; omega
    | cons r rs =>
      obtain ⟨b, hb⟩ : ∃ b, (r :: rs).getLast? = some b := by
        rw [List.getLast?_eq_some_getLast (by simp)]; exact ⟨_, rfl⟩
      rw [hb, List.head?_cons]
      have h0 := chain_head hch r (List.head?_cons)
      have hl := chain_last hch b hb
      simp only [h0, hl, ne_eq, not_true_eq_false, or_self, if_false]
      obtain ⟨ts, e1, e2⟩ := build_tiling steps (r :: rs) 0 1 hok hch
      rw [List.drop_zero] at e2
      exact ⟨ts, e1, e2⟩
  · right
    refine ⟨⟨e, ?_⟩, h2⟩
    unfold partition
    simp only [h1]
    rfl

/-- a step of a given type with a report (a loop step has a count) -/
def mk (t : String) : Step :=
  { stepType := t, stepMode := "Current", stepValue := some (.num ⟨false, 1, [], 0⟩), limits := none,
    ends := .single { endType := "Loop Cnt", oper := "=", value := .num ⟨false, 3, [], 0⟩, step := 1 },
    reports := .single { reportType := "StepTime", value := .time ⟨0, 1, 0⟩ } }

/-- a plain prefix, a nested loop, and a rest -/
example : (partition (["Rest", "Do 1", "Do 2", "Charge", "Loop 2", "AdvCycle", "Loop 1", "Rest"].map mk)).map
    (fun ts => ts.map (fun t => (t.num, t.offset, t.loops, t.steps.map Step.stepType))) =
    .ok [(1, 0, false, ["Rest"]), (2, 2, true, ["Do 2", "Charge", "Loop 2", "AdvCycle"]), (4, 7, false, ["Rest"])] := by
  decide +kernel

/-- a refused procedure: an inner loop without outer loop -/
example : partition (["Do 2", "Charge", "Loop 2"].map mk) = .error .assertionError := by decide +kernel

/-! ### loop structure inside a technique -/

theorem mark_of {t : String} : (t == "Do 1" || t == "Do 2" || t == "Loop 1" || t == "Loop 2") = true ↔
    t = "Do 1" ∨ t = "Do 2" ∨ t = "Loop 1" ∨ t = "Loop 2" := by
  simp [or_assoc]

theorem marks_cons_pos (s : Step) (ss : List Step)
    (h : s.stepType = "Do 1" ∨ s.stepType = "Do 2" ∨ s.stepType = "Loop 1" ∨ s.stepType = "Loop 2") :
    marks (s :: ss) = s.stepType :: marks ss := by
  unfold marks
  rw [List.map_cons, List.filter_cons, if_pos (mark_of.mpr h)]

theorem marks_cons_neg (s : Step) (ss : List Step)
    (h : ¬ (s.stepType = "Do 1" ∨ s.stepType = "Do 2" ∨ s.stepType = "Loop 1" ∨ s.stepType = "Loop 2")) :
    marks (s :: ss) = marks ss := by
  unfold marks
  rw [List.map_cons, List.filter_cons, if_neg (fun hh => h (mark_of.mp hh))]

theorem ruleLoop_marks (steps : List Step) (offset : Nat) (o c bo bc : String)
    (hm : (o = "Do 1" ∧ c = "Loop 1" ∧ bo = "Do 2" ∧ bc = "Loop 2") ∨
      (o = "Do 2" ∧ c = "Loop 2" ∧ bo = "Do 1" ∧ bc = "Loop 1"))
    (ss : List Step) (st st' : RState) (i : Nat)
    (h : ruleLoop steps offset o c bo bc st i ss = .ok st') :
    Alternates o c st.opened.isSome (marks ss) := by
  induction ss generalizing st i with
  | nil => cases st.opened <;> trivial
  | cons s ss ih =>
    rw [ruleLoop] at h
    cases hs : ruleStep steps offset o c bo bc st i s with
    | error e => rw [hs] at h; cases h
    | ok st1 =>
      rw [hs] at h
      have hrec := ih st1 (i + 1) h
      clear h ih
      unfold ruleStep at hs
      by_cases h1 : s.stepType = bc ∨ s.stepType = bo
      · rw [if_pos h1] at hs; cases hs
      rw [if_neg h1] at hs
      by_cases h2 : s.stepType = "AdvCycle"
      · rw [if_pos h2] at hs
        cases hs
        rw [marks_cons_neg s ss (by rw [h2]; decide)]
        exact hrec
      rw [if_neg h2] at hs
      by_cases h3 : s.stepType = o
      · rw [if_pos h3] at hs
        have hmk : s.stepType = "Do 1" ∨ s.stepType = "Do 2" ∨ s.stepType = "Loop 1" ∨ s.stepType = "Loop 2" := by
          rcases hm with ⟨a, _⟩ | ⟨a, _⟩ <;> rw [h3, a] <;> decide
        rw [marks_cons_pos s ss hmk]
        cases ho : st.opened with
        | some x => rw [ho] at hs; cases hs
        | none =>
          rw [ho] at hs
          cases hs
          exact ⟨h3, hrec⟩
      rw [if_neg h3] at hs
      by_cases h4 : s.stepType = c
      · rw [if_pos h4] at hs
        have hmk : s.stepType = "Do 1" ∨ s.stepType = "Do 2" ∨ s.stepType = "Loop 1" ∨ s.stepType = "Loop 2" := by
          rcases hm with ⟨_, a, _⟩ | ⟨_, a, _⟩ <;> rw [h4, a] <;> decide
        rw [marks_cons_pos s ss hmk]
        cases ho : st.opened with
        | none => rw [ho] at hs; cases hs
        | some x =>
          rw [ho] at hs
          refine ⟨h4, ?_⟩
          have hop : st1.opened = none := by
            simp only at hs
            by_cases ha : st.adv > 0
            · rw [if_pos ha] at hs
              cases hp : st.prevMeas with
              | none => rw [hp] at hs; cases hs
              | some m =>
                rw [hp] at hs
                simp only [bind, Except.bind] at hs
                split at hs
                · cases hs
                · split at hs <;> cases hs <;> rfl
            · rw [if_neg ha] at hs; cases hs; rfl
          rw [hop] at hrec
          exact hrec
      rw [if_neg h4] at hs
      have hmk : ¬ (s.stepType = "Do 1" ∨ s.stepType = "Do 2" ∨ s.stepType = "Loop 1" ∨ s.stepType = "Loop 2") := by
        rcases hm with ⟨a, b, d, e⟩ | ⟨a, b, d, e⟩ <;> subst a <;> subst b <;> subst d <;> subst e <;>
          push Not at h1 <;> simp_all
      rw [marks_cons_neg s ss hmk]
      have hop : st1.opened = st.opened := by
        split at hs
        · cases hs
        · split at hs
          · cases hs; rfl
          · split at hs <;> cases hs <;> rfl
      rw [← hop]
      exact hrec

theorem rules_marks (c : Converted) (carry : Int) (r : Beep.CycleRules.Rules × Int) (h : rulesOf carry c = .ok r) :
    Alternates (if c.tech.loops then "Do 2" else "Do 1") (if c.tech.loops then "Loop 2" else "Loop 1") false
      (marks c.tech.steps) := by
  unfold rulesOf at h
  simp only [bind, Except.bind] at h
  split at h
  · cases h
  · rename_i st hst
    refine ruleLoop_marks c.tech.steps c.tech.offset _ _ _ _ ?_ c.tech.steps _ st 0 hst
    cases c.tech.loops <;> simp

theorem createRules_mem (cs : List Converted) (carry : Int) (rs : List Beep.CycleRules.Rules)
    (h : createRules carry cs = .ok rs) (c : Converted) (hc : c ∈ cs) :
    ∃ carry' r, rulesOf carry' c = .ok r := by
  induction cs generalizing carry rs with
  | nil => cases hc
  | cons x xs ih =>
    rw [createRules] at h
    simp only [bind, Except.bind] at h
    split at h
    · cases h
    · rename_i r hr
      split at h
      · cases h
      · rename_i rest hrest
        rcases List.mem_cons.mp hc with e | e
        · subst e; exact ⟨carry, r, hr⟩
        · exact ih r.2 rest hrest e

/-- C24: in a converted procedure the loop markers of every technique are properly paired and
not nested, except that the last loop may stay open.  Missing: an open loop should be
rejected. -/
theorem C24_loops_partial (cfg : Config) (steps : List Step) (r : List (Converted × List Seq) × List Beep.CycleRules.Rules)
    (h : convert cfg steps = .ok r) (c : Converted × List Seq) (hc : c ∈ r.1) :
    Alternates (if c.1.tech.loops then "Do 2" else "Do 1") (if c.1.tech.loops then "Loop 2" else "Loop 1") false
      (marks c.1.tech.steps) := by
  unfold convert at h
  simp only [bind, Except.bind] at h
  split at h
  · cases h
  · split at h
    · cases h
    · split at h
      · cases h
      · split at h
        · cases h
        · split at h
          · cases h
          · rename_i conv _
            split at h
            · cases h
            · rename_i rules hr
              cases h
              obtain ⟨carry, x, hx⟩ := createRules_mem (conv.map Prod.fst) 0 rules hr c.1
                (List.mem_map.mpr ⟨c, hc, rfl⟩)
              exact rules_marks c.1 carry x hx

theorem filterEnds_other (pred : EndEntry → Except Err Bool) (s s' : Step) (h : filterEnds pred s = .ok s') :
    { s' with ends := s.ends } = s := by
  unfold filterEnds at h
  cases hs : s.ends with
  | absent => rw [hs] at h; cases h; rw [← hs]
  | single a => rw [hs] at h; cases h; rw [← hs]
  | many l =>
    rw [hs] at h
    simp only [bind, Except.bind] at h
    split at h
    · cases h
    · cases h
      split
      · rw [← hs]
      · show { s with ends := Entries.many l } = s
        rw [← hs]

theorem mapStep_other (cfg : Config) (s s' : Step) (h : mapStep cfg s = .ok s') :
    { s' with ends := s.ends } = s := by
  unfold mapStep at h
  simp only [bind, Except.bind] at h
  split at h
  · cases h
  rename_i s1 h1
  split at h
  · cases h
  rename_i s2 h2
  split at h
  · cases h
  rename_i s3 h3
  have e1 := filterEnds_other _ _ _ h1
  have e2 := filterEnds_other _ _ _ h2
  have e3 := filterEnds_other _ _ _ h3
  have e4 := filterEnds_other _ _ _ h
  rw [← e4] at e3
  rw [← e3] at e2
  rw [← e2] at e1
  exact e1

theorem mapE_forall {α β : Type} (f : α → Except Err β) (l : List α) (l' : List β) (h : mapE f l = .ok l') :
    List.Forall₂ (fun a b => f a = .ok b) l l' := by
  induction l generalizing l' with
  | nil => cases h; exact .nil
  | cons a as ih =>
    rw [mapE] at h
    simp only [bind, Except.bind] at h
    split at h
    · cases h
    rename_i b hb
    split at h
    · cases h
    rename_i bs hbs
    cases h
    exact .cons hb (ih bs hbs)

/-- C24: the techniques of a converted procedure tile the procedure without its End step; the
steps differ from the original ones at most in their end entries. -/
theorem C24_converted (cfg : Config) (steps : List Step) (r : List (Converted × List Seq) × List Beep.CycleRules.Rules)
    (h : convert cfg steps = .ok r) :
    ∃ body last : List Step, List.Forall₂ (fun s s' => { s' with ends := s.ends } = s) steps (body ++ last) ∧
      last.map Step.stepType = ["End"] ∧ Tiling 0 1 body (r.1.map (fun c => c.1.tech)) := by
  unfold convert at h
  simp only [bind, Except.bind] at h
  split at h
  · cases h
  rename_i mapped hmapped
  split at h
  · cases h
  rename_i last hlast
  split at h
  · cases h
  rename_i hend
  split at h
  · cases h
  rename_i techs htechs
  split at h
  · cases h
  rename_i conv hconv
  split at h
  · cases h
  rename_i rules hr
  cases h
  push Not at hend
  have hne : mapped ≠ [] := by
    intro e; rw [e] at hlast; cases hlast
  have hsplit : mapped.dropLast ++ [last] = mapped := by
    have hg : mapped.getLast hne = last := by
      rw [List.getLast?_eq_some_getLast hne] at hlast; exact Option.some.inj hlast
    rw [← hg]; exact List.dropLast_append_getLast hne
  refine ⟨mapped.dropLast, [last], ?_, by simp [hend], ?_⟩
  · rw [hsplit]
    exact (mapE_forall _ _ _ hmapped).imp (fun a b hab => mapStep_other cfg a b hab)
  · have htt : conv.map (fun c => c.1.tech) = techs := by
      have := mapE_forall _ _ _ hconv
      clear hr htechs hconv
      induction this with
      | nil => rfl
      | @cons a b as bs hab _ ih =>
        rw [List.map_cons, ih]
        split at hab
        · cases hab
        · cases hab; rfl
    show Tiling 0 1 mapped.dropLast (conv.map (fun c => c.1.tech))
    rw [htt]
    by_cases hnil : mapped.dropLast = []
    · rw [hnil] at htechs
      cases htechs
    · rcases C24_cover mapped.dropLast hnil with ⟨ts, e1, e2⟩ | ⟨⟨e, e1⟩, _⟩
      · rw [e1] at htechs; cases htechs; exact e2
      · rw [e1] at htechs; cases htechs

def noLimits : Config := { maxV := none, minV := none, maxI := none, minI := none }

def chg : Step := { mk "Charge" with ends := .absent }

/-- a procedure that is converted -/
example : ((convert noLimits [mk "Do 1", chg, mk "AdvCycle", mk "Loop 1", chg, mk "End"]).map
    (fun r => (r.1.map (fun c => (c.1.tech.num, c.2.map Seq.ctrlType)), r.2.map (fun x => x.onTechLoop)))) =
    .ok ([(1, ["CC", "Loop", "CC"])], [0]) := by decide +kernel

/-- C24 fails: a loop that is opened and never closed is converted, and so is an outer loop
closed while its inner loop is open. -/
theorem C24_unclosed_violated :
    ((convert noLimits [mk "Do 1", chg, mk "End"]).map (fun r => r.1.map (fun c => c.2.map Seq.ctrlType)) =
      .ok [["CC"]]) ∧
    ((convert noLimits [mk "Do 1", mk "Do 2", chg, mk "Loop 1", mk "End"]).map
      (fun r => r.1.map (fun c => (c.1.tech.loops, c.2.map Seq.ctrlType))) = .ok [(true, ["CC"])]) := by
  constructor <;> decide +kernel

end Beep.Props.MtbPartition
