import Verif.Proof.ArbinRun
/-
C72: an Arbin schedule made from a Maccor procedure runs as the procedure does.
-/
namespace Beep.Props.ArbinRun
open Beep Beep.MtA Beep.Spec.MtA Beep.Spec.ArbinRun Beep.Proof.ArbinRun Beep.Props.MaccorToArbin

/-- the moves of a schedule at a step with known limits -/
theorem runs_at (as : List AStep) (m : Measured) (s s' : State) (a : AStep) (ha : as[s.pc]? = some a) :
    Runs as m s s' ↔ ∃ k l, ((k, l) ∈ a.limits ∧ k < a.limitNum ∧ l.stepLimit = true) ∧
      Reached m (after a.ctrl s) l ∧ Target as s.pc l.goto s'.pc ∧
      s'.count = (after a.ctrl s).count ∧ s'.cycle = (after a.ctrl s).cycle := by
  constructor
  · rintro ⟨a', k, l, h1, h2, h3, h4, h5⟩
    rw [ha] at h1
    cases h1
    exact ⟨k, l, ⟨h2, h3, h4⟩, h5⟩
  · rintro ⟨k, l, ⟨h2, h3, h4⟩, h5⟩
    exact ⟨a, k, l, ha, h2, h3, h4, h5⟩

theorem state_eq (s : State) (p : Nat) (c : Nat → Nat) (y : Nat) (h1 : s.pc = p) (h2 : s.count = c) (h3 : s.cycle = y) :
    s = ⟨p, c, y⟩ := by
  cases s
  cases h1
  cases h2
  cases h3
  rfl

/-- a step without end entries goes on to the next one -/
theorem runs_free (as : List AStep) (steps : List Step) (flow : List (Nat × Nat)) (m : Measured) (s s' : State)
    (a : AStep) (t : Step) (ha : as[s.pc]? = some a)
    (hl : limitsOf steps flow a.ctrl.type s.pc t = .ok (a.limits, a.limitNum)) (he : t.ends = .absent)
    (ht : 0 < m.time) :
    Runs as m s s' ↔ s' = ⟨s.pc + 1, (after a.ctrl s).count, (after a.ctrl s).cycle⟩ := by
  rw [runs_at as m s s' a ha]
  constructor
  · rintro ⟨k, l, h1, h2, h3, h4, h5⟩
    have := (limits_iff _ _ _ _ _ _ _ hl k l).mp h1
    rw [if_pos he] at this
    obtain ⟨rfl, rfl⟩ := this
    refine state_eq _ _ _ _ ?_ h4 h5
    have h6 : Target as s.pc "Next Step" s'.pc := h3
    unfold Target at h6
    rw [if_pos rfl] at h6
    exact h6
  · rintro rfl
    refine ⟨0, blankLimit, (limits_iff _ _ _ _ _ _ _ hl 0 blankLimit).mpr (by rw [if_pos he]; exact ⟨rfl, rfl⟩),
      (blank_reached _ _).mpr ht, ?_, rfl, rfl⟩
    show Target as s.pc "Next Step" (s.pc + 1)
    unfold Target
    rw [if_pos rfl]

/-- the moves of a converted loop -/
theorem runs_loop (as : List AStep) (steps : List Step) (ps : List (Nat × Nat)) (hn : (ps.map Prod.fst).Nodup)
    (m : Measured) (s s' : State) (a : AStep) (t t' : Step) (n d : Nat) (e : End) (v : Rat)
    (hL : Labelled steps as) (ha : as[s.pc]? = some a)
    (hc : compile steps (ps.map (fun p => (p.1, p.2 + 1))) s.pc t = .ok (a, t'))
    (hm : t.mode = .unset) (ht : t.type = .loop n) (hd : (s.pc, d) ∈ ps) (he : t.ends = .single e)
    (het : e.endType = "Loop Cnt") (hst : e.step ≠ 0) (ho : e.oper ∈ operators) (hv : e.value = .num v) :
    Runs as m s s' ↔
      (((s.count n + 1 : Nat) : Rat) < v ∧ s' = ⟨d + 1, update s.count n (s.count n + 1), s.cycle⟩) ∨
      (holds e.oper ((s.count n + 1 : Nat) : Rat) v ∧ s' = ⟨e.step - 1, update s.count n (s.count n + 1), s.cycle⟩) := by
  obtain ⟨h1, h2, h3⟩ := compile_parts _ _ _ _ _ _ hc
  obtain ⟨haf, hn12⟩ := control_loop t n a.ctrl h1 hm ht s
  have hflow := flowOf_map ps hn s.pc d hd
  have ht' : t' = { t with ends := .many [{ endType := "Loop Addendum", oper := "< ", step := d + 1 + 1, value := e.value }, e] } := by
    unfold addendum at h2
    rw [hm, ht] at h2
    simp only at h2
    rw [if_pos hn12, hflow, he] at h2
    cases h2
    rw [hm, ht]
  have hty : t'.type = .loop n := by rw [ht']; exact ht
  have hends : endsOf t'.ends = [{ endType := "Loop Addendum", oper := "< ", step := d + 1 + 1, value := .num v }, e] := by
    rw [ht', hv]; rfl
  have hna : t'.ends ≠ .absent := by rw [ht']; simp
  have hcount : (after a.ctrl s).count n = s.count n + 1 := by rw [haf]; simp [update]
  have hlim := limits_iff _ _ _ _ _ _ _ h3
  simp only [if_neg hna, hends, hty] at hlim
  obtain ⟨l0, hl0⟩ := limits_exist _ _ _ _ _ _ _ h3 0 _ (by rw [hends]; rfl)
  obtain ⟨l1, hl1⟩ := limits_exist _ _ _ _ _ _ _ h3 1 e (by rw [hends]; rfl)
  rw [hty] at hl0 hl1
  obtain ⟨b1, b2, b3, t2, b4, b5⟩ := loop_limits _ _ _ _ _ _ _ _ _ hflow hl0
  obtain ⟨_, c1, _, _, _, c2⟩ := C32_end_partial _ _ _ _ _ _ _ hl1
  obtain ⟨n', v', c3, c4, c5, c6⟩ := c2 het
  simp only [counterOf, Except.ok.injEq] at c3
  subst c3
  rw [hv] at c4
  cases c4
  have r0 : Reached m (after a.ctrl s) l0 ↔ ((s.count n + 1 : Nat) : Rat) < v := by
    rw [(left_cases l0 m _).2.2.2 n b1, hcount, b2, b3]
    simp [sat]
  have r1 : Reached m (after a.ctrl s) l1 ↔ holds e.oper ((s.count n + 1 : Nat) : Rat) v := by
    rw [(left_cases l1 m _).2.2.2 n c5, hcount, c6, holds_sat _ ho]
  have g0 : ∀ q, Target as s.pc l0.goto q ↔ q = d + 1 := by
    intro q
    rw [b5]
    exact target_label steps as hL _ _ q t2 b4
  have g1 : ∀ q, Target as s.pc l1.goto q ↔ q = e.step - 1 := by
    intro q
    obtain ⟨x, y⟩ := c1 (by rw [het]; decide)
    exact target_end steps as hL _ q e _ hst x y
  rw [runs_at as m s s' a ha]
  constructor
  · rintro ⟨k, l, k1, k2, k3, k4, k5⟩
    obtain ⟨e', k6, k7⟩ := (hlim k l).mp k1
    rw [haf] at k4 k5
    match k, k6 with
    | 0, k6 =>
      cases k6
      rw [hl0] at k7
      cases k7
      exact Or.inl ⟨r0.mp k2, state_eq _ _ _ _ ((g0 _).mp k3) k4 k5⟩
    | 1, k6 =>
      cases k6
      rw [hl1] at k7
      cases k7
      exact Or.inr ⟨r1.mp k2, state_eq _ _ _ _ ((g1 _).mp k3) k4 k5⟩
    | k + 2, k6 => simp at k6
  · rintro (⟨k1, rfl⟩ | ⟨k1, rfl⟩)
    · exact ⟨0, l0, (hlim 0 l0).mpr ⟨_, rfl, hl0⟩, r0.mpr k1, (g0 _).mpr rfl, by rw [haf], by rw [haf]⟩
    · exact ⟨1, l1, (hlim 1 l1).mpr ⟨_, rfl, hl1⟩, r1.mpr k1, (g1 _).mpr rfl, by rw [haf], by rw [haf]⟩

/-- the moves of a converted step that acts on the cell -/
theorem runs_acts (as : List AStep) (steps : List Step) (flow : List (Nat × Nat))
    (m : Measured) (s s' : State) (a : AStep) (t t' : Step)
    (hL : Labelled steps as) (ha : as[s.pc]? = some a) (hc : compile steps flow s.pc t = .ok (a, t'))
    (ht : Acts t.type)
    (hp : endsOf t.ends ≠ [] ∧ ∀ e ∈ endsOf t.ends, e.step ≠ 0 ∧ e.oper ∈ operators ∧
      (e.endType = "Current" → t.type = .dischrge → e.oper = "<= " ∨ e.oper = "< " ∨ e.oper = "= ") ∧
      ∀ tt, e.value = .time tt → tt.frac.length ≤ 6)
    (h1 : t.type = .charge → 0 ≤ m.current) (h2 : t.type = .dischrge → m.current ≤ 0) :
    Runs as m s s' ↔ ∃ e ∈ endsOf t.ends, Ended m e ∧ s' = ⟨e.step - 1, s.count, s.cycle⟩ := by
  obtain ⟨p1, p2, p3⟩ := compile_parts _ _ _ _ _ _ hc
  have htt := addendum_acts _ _ _ _ p2 ht.2.1
  subst htt
  have haf := after_acts a.ctrl s (control_acts _ _ p1 ht)
  have hna : t'.ends ≠ .absent := by
    intro h
    rw [h] at hp
    exact hp.1 rfl
  have hlim := limits_iff _ _ _ _ _ _ _ p3
  simp only [if_neg hna] at hlim
  have key : ∀ e ∈ endsOf t'.ends, ∀ l, convertEnd steps flow a.ctrl.type s.pc t'.type e = .ok l →
      (Reached m s l ↔ Ended m e) ∧ ∀ q, Target as s.pc l.goto q ↔ q = e.step - 1 := by
    intro e he l hl
    obtain ⟨q1, q2, q3, q4⟩ := hp.2 e he
    refine ⟨end_iff _ _ _ _ _ _ _ hl ht q2 q3 q4 m h1 h2 s, ?_⟩
    intro q
    obtain ⟨_, c1, _⟩ := C32_end_partial _ _ _ _ _ _ _ hl
    have hne : e.endType ≠ "Loop Addendum" := by
      rcases endType_of _ _ _ _ _ _ _ hl ht with r | r | r <;> rw [r] <;> decide
    exact target_end steps as hL _ q e _ q1 (c1 hne).1 (c1 hne).2
  rw [runs_at as m s s' a ha, haf]
  constructor
  · rintro ⟨k, l, k1, k2, k3, k4, k5⟩
    obtain ⟨e, k6, k7⟩ := (hlim k l).mp k1
    have hmem := List.mem_of_getElem? k6
    obtain ⟨r, g⟩ := key e hmem l k7
    exact ⟨e, hmem, r.mp k2, state_eq _ _ _ _ ((g _).mp k3) k4 k5⟩
  · rintro ⟨e, he, k1, rfl⟩
    obtain ⟨k, hk⟩ := List.getElem?_of_mem he
    obtain ⟨l, hl⟩ := limits_exist _ _ _ _ _ _ _ p3 k e hk
    obtain ⟨r, g⟩ := key e he l hl
    exact ⟨k, l, (hlim k l).mpr ⟨e, hk, hl⟩, r.mpr k1, (g _).mpr rfl, rfl, rfl⟩

theorem acts_or (t : SType) : Acts t ∨ (∃ n, t = .doo n) ∨ (∃ n, t = .loop n) ∨ t = .adv ∨ t = .ende := by
  cases t with
  | doo n => exact Or.inr (Or.inl ⟨n, rfl⟩)
  | loop n => exact Or.inr (Or.inr (Or.inl ⟨n, rfl⟩))
  | adv => exact Or.inr (Or.inr (Or.inr (Or.inl rfl)))
  | ende => exact Or.inr (Or.inr (Or.inr (Or.inr rfl)))
  | _ => exact Or.inl ⟨by simp, by simp, by simp, by simp⟩

theorem acts_not (t : SType) (h : Acts t) : (∀ n, t ≠ .doo n) ∧ (∀ n, t ≠ .loop n) ∧ t ≠ .adv ∧ t ≠ .ende := h

/-- the moves of a procedure at a known step -/
theorem moves_at (steps : List Step) (ps : List (Nat × Nat)) (hp : pairs [] 0 steps = some ps) (m : Measured)
    (s s' : State) (t : Step) (ht : steps[s.pc]? = some t) :
    Moves steps m s s' ↔
      (∃ n, t.type = .doo n ∧ s' = ⟨s.pc + 1, update s.count n 0, s.cycle⟩) ∨
      (t.type = .adv ∧ s' = ⟨s.pc + 1, s.count, s.cycle + 1⟩) ∨
      (∃ n e v, t.type = .loop n ∧ t.ends = .single e ∧ e.value = .num v ∧
        ((¬ holds e.oper ((s.count n + 1 : Nat) : Rat) v ∧ ∃ d, (s.pc, d) ∈ ps ∧
            s' = ⟨d + 1, update s.count n (s.count n + 1), s.cycle⟩) ∨
         (holds e.oper ((s.count n + 1 : Nat) : Rat) v ∧
            s' = ⟨e.step - 1, update s.count n (s.count n + 1), s.cycle⟩))) ∨
      (Acts t.type ∧ ∃ e ∈ endsOf t.ends, Ended m e ∧ s' = ⟨e.step - 1, s.count, s.cycle⟩) ∨
      (t.type = .ende ∧ s' = ⟨steps.length, s.count, s.cycle⟩) := by
  constructor
  · intro h
    cases h with
    | opens t1 n h1 h2 => rw [ht] at h1; cases h1; exact Or.inl ⟨n, h2, rfl⟩
    | advances t1 h1 h2 => rw [ht] at h1; cases h1; exact Or.inr (Or.inl ⟨h2, rfl⟩)
    | repeats t1 n d e v ps' h1 h2 h3 h4 h5 h6 h7 =>
      rw [ht] at h1; cases h1
      rw [hp] at h6; cases h6
      exact Or.inr (Or.inr (Or.inl ⟨n, e, v, h2, h3, h4, Or.inl ⟨h5, d, h7, rfl⟩⟩))
    | leaves t1 n e v h1 h2 h3 h4 h5 =>
      rw [ht] at h1; cases h1
      exact Or.inr (Or.inr (Or.inl ⟨n, e, v, h2, h3, h4, Or.inr ⟨h5, rfl⟩⟩))
    | acts t1 e h1 h2 h3 h4 =>
      rw [ht] at h1; cases h1
      exact Or.inr (Or.inr (Or.inr (Or.inl ⟨h2, e, h3, h4, rfl⟩)))
    | ends t1 h1 h2 =>
      rw [ht] at h1; cases h1
      exact Or.inr (Or.inr (Or.inr (Or.inr ⟨h2, rfl⟩)))
  · rintro (⟨n, h2, rfl⟩ | ⟨h2, rfl⟩ | ⟨n, e, v, h2, h3, h4, ⟨h5, d, h7, rfl⟩ | ⟨h5, rfl⟩⟩ | ⟨h2, e, h3, h4, rfl⟩ | ⟨h2, rfl⟩)
    · exact .opens s t n ht h2
    · exact .advances s t ht h2
    · exact .repeats s t n d e v ps ht h2 h3 h4 h5 hp h7
    · exact .leaves s t n e v ht h2 h3 h4 h5
    · exact .acts s t e ht h2 h3 h4
    · exact .ends s t ht h2

/-- C72: at every step a converted schedule makes the same moves as the procedure, whatever the
cycler measures, as long as no loop that asks for equality has counted past its number.  Missing:
loops opened by the first or second step, an End before the last step, discharges ended by a large
current. -/
theorem C72_move_partial (steps : List Step) (ps : List (Nat × Nat)) (hp : pairs [] 0 steps = some ps)
    (h2 : ∀ p ∈ ps, 2 ≤ p.2) (hpl : Plain steps) (as : List AStep) (left : List Step)
    (h : createSdu steps = .ok (as, left)) (m : Measured) (s s' : State) (hm : Fits steps s m) (hw : Within steps s) :
    Runs as m s s' ↔ Moves steps m s s' := by
  obtain ⟨hL, hstep⟩ := schedule_step steps ps hp h2 as left h
  obtain ⟨_, _, hloops⟩ := nested_facts steps ps hp
  cases ht : steps[s.pc]? with
  | none =>
    have hnone : as[s.pc]? = none := by
      rw [List.getElem?_eq_none_iff] at ht ⊢
      rw [hL.1]
      exact ht
    constructor
    · rintro ⟨a, k, l, h1, _⟩
      rw [hnone] at h1
      cases h1
    · intro hmv
      cases hmv <;> (rename_i h1 _ ; rw [ht] at *; simp_all)
  | some t =>
    obtain ⟨a, t', ha, hc⟩ := hstep s.pc t ht
    have hmem := List.mem_of_getElem? ht
    obtain ⟨c1, c2, c3⟩ := compile_parts _ _ _ _ _ _ hc
    rw [moves_at steps ps hp m s s' t ht]
    rcases acts_or t.type with hA | ⟨n, hty⟩ | ⟨n, hty⟩ | hty | hty
    · rw [runs_acts as steps _ m s s' a t t' hL ha hc hA (hpl.acts t hmem hA) (hm.2 t ht).1 (hm.2 t ht).2]
      obtain ⟨a1, a2, a3, a4⟩ := hA
      constructor
      · intro hh; exact Or.inr (Or.inr (Or.inr (Or.inl ⟨⟨a1, a2, a3, a4⟩, hh⟩)))
      · rintro (⟨n, k, _⟩ | ⟨k, _⟩ | ⟨n, e, v, k, _⟩ | ⟨_, k⟩ | ⟨k, _⟩)
        · exact absurd k (a1 n)
        · exact absurd k a3
        · exact absurd k (a2 n)
        · exact k
        · exact absurd k a4
    · have hnA : ¬ Acts t.type := fun hA => hA.1 n hty
      have hmode := hpl.flow t hmem hnA
      have hnl : ∀ k, t.type ≠ .loop k := by intro k; rw [hty]; simp
      have hfree := hpl.free t hmem hnA hnl
      have := addendum_acts _ _ _ _ c2 hnl
      subst this
      rw [runs_free as steps _ m s s' a t' ha c3 hfree hm.1, control_do t' n a.ctrl c1 hmode hty s]
      constructor
      · intro hh; exact Or.inl ⟨n, hty, hh⟩
      · rintro (⟨n', k, hh⟩ | ⟨k, _⟩ | ⟨n', e, v, k, _⟩ | ⟨k, _⟩ | ⟨k, _⟩)
        · rw [hty] at k; cases k; exact hh
        · rw [hty] at k; cases k
        · rw [hty] at k; cases k
        · exact absurd k hnA
        · rw [hty] at k; cases k
    · have hnA : ¬ Acts t.type := fun hA => hA.2.1 n hty
      have hmode := hpl.flow t hmem hnA
      obtain ⟨e, v, e1, e2, e3, e4, e5⟩ := hpl.loop t hmem n hty
      obtain ⟨d, hd⟩ := hloops s.pc t n ht hty
      have hnd := (pairs_ge [] 0 steps ps hp).2
      have hop : e.oper ∈ operators := by rcases e4 with r | r <;> rw [r] <;> decide
      rw [runs_loop as steps ps hnd m s s' a t t' n d e v hL ha hc hmode hty hd e1 e2 e3 hop e5]
      have hlt : ((s.count n + 1 : Nat) : Rat) < v ↔ ¬ holds e.oper ((s.count n + 1 : Nat) : Rat) v := by
        rcases e4 with r | r
        · have hle := hw t n e v ht hty e1 e5 r
          rw [r]
          have : holds "= " ((s.count n + 1 : Nat) : Rat) v ↔ ((s.count n + 1 : Nat) : Rat) = v := by simp [holds]
          rw [this]
          exact ⟨fun hh => ne_of_lt hh, fun hh => lt_of_le_of_ne hle hh⟩
        · rw [r]
          have : holds ">= " ((s.count n + 1 : Nat) : Rat) v ↔ v ≤ ((s.count n + 1 : Nat) : Rat) := by simp [holds]
          rw [this, not_le]
      rw [hlt]
      constructor
      · rintro (⟨k1, k2⟩ | k)
        · exact Or.inr (Or.inr (Or.inl ⟨n, e, v, hty, e1, e5, Or.inl ⟨k1, d, hd, k2⟩⟩))
        · exact Or.inr (Or.inr (Or.inl ⟨n, e, v, hty, e1, e5, Or.inr k⟩))
      · rintro (⟨n', k, hh⟩ | ⟨k, _⟩ | ⟨n', e', v', k, k2, k3, hh⟩ | ⟨k, _⟩ | ⟨k, _⟩)
        · rw [hty] at k; cases k
        · rw [hty] at k; cases k
        · rw [hty] at k; cases k
          rw [e1] at k2; cases k2
          rw [e5] at k3; cases k3
          rcases hh with ⟨k1, d', hd', k2⟩ | hh
          · have : d' = d := by
              have := List.inj_on_of_nodup_map hnd hd' hd rfl
              exact (Prod.mk.inj this).2
            rw [this] at k2
            exact Or.inl ⟨k1, k2⟩
          · exact Or.inr hh
        · exact absurd k hnA
        · rw [hty] at k; cases k
    · have hnA : ¬ Acts t.type := fun hA => hA.2.2.1 hty
      have hmode := hpl.flow t hmem hnA
      have hnl : ∀ k, t.type ≠ .loop k := by intro k; rw [hty]; simp
      have hfree := hpl.free t hmem hnA hnl
      have := addendum_acts _ _ _ _ c2 hnl
      subst this
      rw [runs_free as steps _ m s s' a t' ha c3 hfree hm.1, control_adv t' a.ctrl c1 hmode hty s]
      constructor
      · intro hh; exact Or.inr (Or.inl ⟨hty, hh⟩)
      · rintro (⟨n', k, hh⟩ | ⟨k, hh⟩ | ⟨n', e, v, k, _⟩ | ⟨k, _⟩ | ⟨k, _⟩)
        · rw [hty] at k; cases k
        · exact hh
        · rw [hty] at k; cases k
        · exact absurd k hnA
        · rw [hty] at k; cases k
    · have hnA : ¬ Acts t.type := fun hA => hA.2.2.2 hty
      have hmode := hpl.flow t hmem hnA
      have hnl : ∀ k, t.type ≠ .loop k := by intro k; rw [hty]; simp
      have hfree := hpl.free t hmem hnA hnl
      have := addendum_acts _ _ _ _ c2 hnl
      subst this
      rw [runs_free as steps _ m s s' a t' ha c3 hfree hm.1, control_end t' a.ctrl c1 hmode hty s,
        hpl.last s.pc t' ht hty]
      constructor
      · intro hh; exact Or.inr (Or.inr (Or.inr (Or.inr ⟨hty, hh⟩)))
      · rintro (⟨n', k, hh⟩ | ⟨k, hh⟩ | ⟨n', e, v, k, _⟩ | ⟨k, _⟩ | ⟨k, hh⟩)
        · rw [hty] at k; cases k
        · rw [hty] at k; cases k
        · rw [hty] at k; cases k
        · exact absurd k hnA
        · exact hh

/-- no loop that asks for equality has counted past its number, as long as one is inside it -/
def Below (steps : List Step) (ps : List (Nat × Nat)) (s : State) : Prop :=
  ∀ p ∈ ps, p.2 < s.pc → s.pc ≤ p.1 → ∀ t n e v, steps[p.1]? = some t → t.type = .loop n → t.ends = .single e →
    e.value = .num v → e.oper = "= " → ((s.count n + 1 : Nat) : Rat) ≤ v

theorem below_moves (steps : List Step) (ps : List (Nat × Nat)) (hp : pairs [] 0 steps = some ps)
    (hen : Enclosed steps ps) (hwh : Whole steps) (m : Measured) (s s' : State) (h : Moves steps m s s')
    (hb : Below steps ps s) : Below steps ps s' := by
  obtain ⟨hpair, hlam, hloops⟩ := nested_facts steps ps hp
  intro p hpm h1 h2 t n e v ht hty he hv ho
  obtain ⟨n0, q1, q2, q3, q4⟩ := hpair p hpm
  have hn0 : n0 = n := by
    rw [ht] at q2
    simp only [Option.map_some, hty, Option.some.injEq, SType.loop.injEq] at q2
    exact q2.symm
  subst hn0
  obtain ⟨k, hk1, hk2⟩ := hwh t (List.mem_of_getElem? ht) n0 e v hty he hv
  have inside : p.2 < s.pc → s.pc ≤ p.1 → ((s.count n0 + 1 : Nat) : Rat) ≤ v :=
    fun a b => hb p hpm a b t n0 e v ht hty he hv ho
  have typeAt : ∀ t', steps[s.pc]? = some t' → (∀ n, t'.type ≠ .doo n) → s.pc ≠ p.2 := by
    intro t' ht' hne heq
    rw [← heq, ht'] at q3
    simp only [Option.map_some, Option.some.injEq] at q3
    exact hne _ q3
  -- another loop at the active step counts with another number
  have other : ∀ t' n' d, steps[s.pc]? = some t' → t'.type = .loop n' → (s.pc, d) ∈ ps → s.pc ≠ p.1 →
      p.2 ≤ d → d < p.1 → n' ≠ n0 ∧ p.2 < s.pc ∧ s.pc < p.1 := by
    intro t' n' d ht' hty' hd hne hd1 hd2
    obtain ⟨n1, r1, r2, r3, r4⟩ := hpair (s.pc, d) hd
    simp only at r1 r2 r3
    have hn1 : n1 = n' := by
      rw [ht'] at r2
      simp only [Option.map_some, hty', Option.some.injEq, SType.loop.injEq] at r2
      exact r2.symm
    subst hn1
    rcases hlam (s.pc, d) hd p hpm with c | ⟨c1, c2⟩ | ⟨c1, c2⟩
    · rw [← c] at hne; exact absurd rfl hne
    · simp only at c1; omega
    · simp only at c1 c2
      refine ⟨?_, by omega, by omega⟩
      rintro rfl
      exact q4 d c1 hd2 r3
  cases h with
  | opens t' n' ht' hty' =>
    simp only at h1 h2 ⊢
    by_cases hpc : s.pc = p.2
    · rw [hpc] at ht'
      rw [ht'] at q3
      simp only [Option.map_some, hty', Option.some.injEq, SType.doo.injEq] at q3
      subst q3
      simp only [update, if_pos]
      rw [hk2]
      exact_mod_cast hk1
    · have hne : n' ≠ n0 := by
        rintro rfl
        refine q4 s.pc (by omega) (by omega) ?_
        rw [ht', Option.map_some, hty']
      rw [show update s.count n' 0 n0 = s.count n0 by unfold update; rw [if_neg (Ne.symm hne)]]
      exact inside (by omega) (by omega)
  | advances t' ht' hty' =>
    simp only at h1 h2 ⊢
    have := typeAt t' ht' (by intro n; rw [hty']; simp)
    exact inside (by omega) (by omega)
  | repeats t' n' d e' v' ps' ht' hty' he' hv' hn' hp' hd =>
    rw [hp] at hp'
    cases hp'
    simp only at h1 h2 ⊢
    by_cases hpc : s.pc = p.1
    · rw [hpc] at ht'
      rw [ht] at ht'
      cases ht'
      rw [hty] at hty'
      cases hty'
      rw [he] at he'
      cases he'
      rw [hv] at hv'
      cases hv'
      have hle := inside (by omega) (by omega)
      have hne : ((s.count n0 + 1 : Nat) : Rat) ≠ v := by
        intro hh
        apply hn'
        rw [ho, hh]
        simp [holds]
      have hlt := lt_of_le_of_ne hle hne
      rw [hk2] at hlt ⊢
      have hlt' : s.count n0 + 1 < k := by exact_mod_cast hlt
      rw [show update s.count n0 (s.count n0 + 1) n0 = s.count n0 + 1 by simp [update]]
      exact_mod_cast hlt'
    · obtain ⟨x1, x2, x3⟩ := other t' n' d ht' hty' hd hpc (by omega) (by omega)
      rw [show update s.count n' (s.count n' + 1) n0 = s.count n0 by unfold update; rw [if_neg (Ne.symm x1)]]
      exact inside x2 (by omega)
  | leaves t' n' e' v' ht' hty' he' hv' hn' =>
    simp only at h1 h2 ⊢
    obtain ⟨y1, y2⟩ := hen s.pc t' e' ht' (by rw [he']; simp [endsOf]) p hpm h1 h2
    obtain ⟨d, hd⟩ := hloops s.pc t' n' ht' hty'
    obtain ⟨n1, r1, r2, r3, r4⟩ := hpair (s.pc, d) hd
    simp only at r1
    have hdp : p.2 ≤ d := by
      rcases hlam (s.pc, d) hd p hpm with c | ⟨c1, c2⟩ | ⟨c1, c2⟩
      · rw [← c] at y2; simp at y2
      · simp only at c1 c2; omega
      · simp only at c1; omega
    obtain ⟨x1, _, _⟩ := other t' n' d ht' hty' hd (by omega) hdp (by omega)
    rw [show update s.count n' (s.count n' + 1) n0 = s.count n0 by unfold update; rw [if_neg (Ne.symm x1)]]
    exact inside y1 (by omega)
  | acts t' e' ht' hty' he' hm' =>
    simp only at h1 h2 ⊢
    obtain ⟨y1, y2⟩ := hen s.pc t' e' ht' he' p hpm h1 h2
    exact inside y1 (by omega)
  | ends t' ht' hty' =>
    simp only at h1 h2
    have := (List.getElem?_eq_some_iff.mp ht).1
    omega

theorem below_within (steps : List Step) (ps : List (Nat × Nat)) (hp : pairs [] 0 steps = some ps) (s : State)
    (hb : Below steps ps s) : Within steps s := by
  obtain ⟨hpair, _, hloops⟩ := nested_facts steps ps hp
  intro t n e v ht hty he hv ho
  obtain ⟨d, hd⟩ := hloops s.pc t n ht hty
  obtain ⟨_, q1, _⟩ := hpair _ hd
  exact hb _ hd q1 (le_refl _) t n e v ht hty he hv ho

/-- C72: a converted schedule runs as the procedure does.  Whatever the cycler measures on the way,
the states passed from the start of the test — steps, loop counters and cycle numbers — by the
schedule are exactly those passed by the procedure.  Missing: loops opened by the first or second
step, an End before the last step, discharges ended by a large current. -/
theorem C72_runs_partial (steps : List Step) (ps : List (Nat × Nat)) (hp : pairs [] 0 steps = some ps)
    (h2 : ∀ p ∈ ps, 2 ≤ p.2) (hpl : Plain steps) (hen : Enclosed steps ps) (hwh : Whole steps)
    (as : List AStep) (left : List Step) (h : createSdu steps = .ok (as, left))
    (count : Nat → Nat) (cycle : Nat) (l : List (Measured × State)) :
    Path (fun m s s' => Fits steps s m ∧ Runs as m s s') ⟨0, count, cycle⟩ l ↔
      Path (fun m s s' => Fits steps s m ∧ Moves steps m s s') ⟨0, count, cycle⟩ l := by
  have gen : ∀ (s : State), Below steps ps s →
      (Path (fun m s s' => Fits steps s m ∧ Runs as m s s') s l ↔
        Path (fun m s s' => Fits steps s m ∧ Moves steps m s s') s l) := by
    induction l with
    | nil => intro s _; exact ⟨fun _ => .nil s, fun _ => .nil s⟩
    | cons x l ih =>
      intro s hs
      have hmove : ∀ m s', Fits steps s m → (Runs as m s s' ↔ Moves steps m s s') := fun m s' hf =>
        C72_move_partial steps ps hp h2 hpl as left h m s s' hf (below_within steps ps hp s hs)
      constructor
      · intro hh
        cases hh with
        | cons _ s' m _ hr hl =>
          have hm := (hmove m s' hr.1).mp hr.2
          exact .cons _ _ _ _ ⟨hr.1, hm⟩ ((ih s' (below_moves steps ps hp hen hwh m s s' hm hs)).mp hl)
      · intro hh
        cases hh with
        | cons _ s' m _ hr hl =>
          exact .cons _ _ _ _ ⟨hr.1, (hmove m s' hr.1).mpr hr.2⟩
            ((ih s' (below_moves steps ps hp hen hwh m s s' hr.2 hs)).mpr hl)
  refine gen _ ?_
  intro p _ h1
  exact absurd h1 (Nat.not_lt_zero _)

/-- C72 fails: at an End step that is not the last one the schedule goes on to the following
step. -/
theorem C72_end_violated (steps : List Step) (ps : List (Nat × Nat)) (hp : pairs [] 0 steps = some ps)
    (h2 : ∀ p ∈ ps, 2 ≤ p.2) (as : List AStep) (left : List Step) (h : createSdu steps = .ok (as, left))
    (m : Measured) (hm : 0 < m.time) (s : State) (t : Step) (ht : steps[s.pc]? = some t) (hty : t.type = .ende)
    (hmode : t.mode = .unset) (hends : t.ends = .absent) (hmid : s.pc + 1 < steps.length) :
    Runs as m s ⟨s.pc + 1, s.count, s.cycle⟩ ∧ ¬ Moves steps m s ⟨s.pc + 1, s.count, s.cycle⟩ := by
  obtain ⟨hL, hstep⟩ := schedule_step steps ps hp h2 as left h
  obtain ⟨a, t', ha, hc⟩ := hstep s.pc t ht
  obtain ⟨c1, c2, c3⟩ := compile_parts _ _ _ _ _ _ hc
  have hnl : ∀ k, t.type ≠ .loop k := by intro k; rw [hty]; simp
  have := addendum_acts _ _ _ _ c2 hnl
  subst this
  constructor
  · rw [runs_free as steps _ m s _ a t' ha c3 hends hm, control_end t' a.ctrl c1 hmode hty s]
  · rw [moves_at steps ps hp m s _ t' ht]
    rintro (⟨n', k, hh⟩ | ⟨k, hh⟩ | ⟨n', e, v, k, _⟩ | ⟨k, _⟩ | ⟨k, hh⟩)
    · rw [hty] at k; cases k
    · rw [hty] at k; cases k
    · rw [hty] at k; cases k
    · exact k.2.2.2 hty
    · have := congrArg State.pc hh
      simp only at this
      omega

/-- C32: when the end entries of a step are a list, the j-th report entry becomes a limit behind
those of the ends.  It records and does not end the step, and it compares the change of the
quantity of the report with its value.  Missing: a single end entry together with reports. -/
theorem C32_logging_partial (steps : List Step) (flow : List (Nat × Nat)) (ct : String) (i : Nat) (s : Step)
    (ls : List (Nat × Limit)) (n : Nat) (h : limitsOf steps flow ct i s = .ok (ls, n)) (es : List End)
    (hs : s.ends = .many es) (j : Nat) (r : Report) (hr : (reportsOf s.reports)[j]? = some r) :
    ∃ l, (es.length + j, l) ∈ ls ∧ es.length + j < n ∧ (r.reportType ∈ reportTypes → Logs l r) := by
  have one : ∀ r l, convertReport r = .ok l → r.reportType ∈ reportTypes → Logs l r := by
    intro r l hl hty
    unfold convertReport at hl
    simp only [bind, Except.bind] at hl
    split at hl
    · rename_i ht
      split at hl
      · cases hl
      rename_i v hv
      cases hl
      exact ⟨rfl, rfl, rfl, Or.inl ⟨ht, rfl, num?_ok _ _ hv⟩⟩
    split at hl
    · rename_i ht
      split at hl
      · cases hl
      rename_i v hv
      cases hl
      exact ⟨rfl, rfl, rfl, Or.inr (Or.inl ⟨ht, rfl, num?_ok _ _ hv⟩)⟩
    split at hl
    · rename_i ht
      split at hl
      · cases hl
      rename_i v hv
      cases hl
      obtain ⟨t, h1, h2⟩ := time?_ok _ _ hv
      exact ⟨rfl, rfl, rfl, Or.inr (Or.inr ⟨ht, rfl, t, h1, fun hf => elapsed_seconds t _ h2 hf⟩)⟩
    · rename_i a b c
      simp only [reportTypes, List.mem_cons, List.not_mem_nil, or_false] at hty
      rcases hty with e | e | e
      · exact absurd e a
      · exact absurd e b
      · exact absurd e c
  unfold limitsOf at h
  rw [hs] at h
  simp only [bind, Except.bind] at h
  split at h
  · cases h
  rename_i ends hends
  have hlen := mapE_length _ _ _ hends
  cases hrep : s.reports with
  | absent => rw [hrep] at hr; simp [reportsOf] at hr
  | single r' =>
    rw [hrep] at hr h
    simp only at h
    split at h
    · cases h
    rename_i lr hlr
    cases h
    cases j with
    | zero =>
      simp only [reportsOf, List.getElem?_cons_zero, Option.some.injEq] at hr
      subst hr
      refine ⟨lr, ?_, by omega, one _ _ hlr⟩
      rw [Nat.add_zero, ← hlen]
      simp
    | succ j => simp [reportsOf] at hr
  | many rs =>
    rw [hrep] at hr h
    simp only at h
    split at h
    · cases h
    rename_i lr hlr
    cases h
    have hj : j < lr.length := by
      rw [mapE_length _ _ _ hlr]
      exact (List.getElem?_eq_some_iff.mp hr).1
    obtain ⟨r', h1, h2⟩ := (mapE_get _ _ _ hlr j lr[j]).mp (by simp [hj])
    simp only [reportsOf] at hr
    rw [hr] at h1
    cases h1
    refine ⟨lr[j], ?_, by omega, one _ _ h2⟩
    refine List.mem_append_right _ ((number_mem _ _ _ _).mpr ⟨by omega, ?_⟩)
    rw [hlen, Nat.add_sub_cancel_left]
    simp [hj]

/-- a step to which `C32_logging_partial` applies -/
example : let s : Step := { type := .rest, mode := .unset, value := ⟨0, false⟩, limits := none,
                            ends := .many [⟨"StepTime", "= ", 2, .time ⟨false, 0, 30, 0, []⟩⟩],
                            reports := .many [⟨"StepTime", .time ⟨false, 0, 1, 0, []⟩⟩, ⟨"Voltage", .num (1 / 100)⟩],
                            note := "" }
    (limitsOf [s] [] "Rest" 0 s).toOption.isSome = true ∧
      (reportsOf s.reports).map Report.reportType = ["StepTime", "Voltage"] := by
  decide +kernel

/-- the hypotheses of the theorems are met by the sample procedure: a rest, a loop of a charge and a
discharge, and the end -/
example : pairs [] 0 sample = some [(5, 2)] ∧ (∀ p ∈ [(5, 2)], 2 ≤ p.2) ∧ Plain sample ∧
    Enclosed sample [(5, 2)] ∧ Whole sample ∧ (createSdu sample).toOption.isSome = true := by
  refine ⟨by decide +kernel, by decide, ⟨?_, ?_, ?_, ?_, ?_⟩, ?_, ?_, by decide +kernel⟩
  · simp [sample, Acts]
  · simp [sample, Acts]
  · intro i t h hty
    have : i < 7 := (List.getElem?_eq_some_iff.mp h).1
    match i, this with
    | 0, _ | 1, _ | 2, _ | 3, _ | 4, _ | 5, _ => simp [sample] at h; subst h; simp at hty
    | 6, _ => rfl
  · simp [sample]
  · simp [sample, Acts, endsOf, operators]
  · intro i t e h he p hp
    have : i < 7 := (List.getElem?_eq_some_iff.mp h).1
    simp only [List.mem_singleton] at hp
    subst hp
    match i, this with
    | 0, _ | 1, _ | 2, _ | 3, _ | 4, _ | 5, _ | 6, _ =>
      simp only [sample, List.getElem?_cons_zero, List.getElem?_cons_succ, Option.some.injEq] at h
      subst h
      simp only [endsOf, List.mem_cons, List.not_mem_nil, or_false] at he <;>
        (rcases he with rfl | rfl <;> simp)
  · intro t ht n e v hty he hv
    simp only [sample, List.mem_cons, List.not_mem_nil, or_false] at ht
    rcases ht with rfl | rfl | rfl | rfl | rfl | rfl | rfl <;> simp at hty he
    subst he
    cases hv
    exact ⟨10, by decide, by norm_num⟩

/-- a run of the sample: the first rest is over after half an hour -/
example : Path (fun m s s' => Fits sample s m ∧ Moves sample m s s') ⟨0, fun _ => 0, 1⟩
    [(⟨3, 0, 1801⟩, ⟨1, fun _ => 0, 1⟩)] := by
  refine .cons _ _ _ _ ⟨⟨by decide +kernel, ?_⟩, ?_⟩ (.nil _)
  · intro t ht
    simp [sample] at ht
    subst ht
    simp
  · refine Moves.acts ⟨0, fun _ => 0, 1⟩ sample[0] ⟨"StepTime", "= ", 2, .time ⟨false, 0, 30, 0, []⟩⟩ rfl ?_ ?_ ?_
    · simp [sample, Acts]
    · simp [sample, endsOf]
    · exact Or.inr (Or.inr ⟨rfl, _, rfl, by norm_num [seconds, fraction]⟩)

/-- a procedure to which `C72_end_violated` applies -/
example : let st (t : SType) : Step := { type := t, mode := .unset, value := ⟨0, false⟩, limits := none, ends := .absent,
                                         reports := .absent, note := "" }
    pairs [] 0 [st .ende, st .ende] = some [] ∧ (createSdu [st .ende, st .ende]).toOption.isSome = true := by
  decide +kernel

end Beep.Props.ArbinRun
