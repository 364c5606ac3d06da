import Verif.Props.MaccorToArbin
import Verif.Spec.ArbinRun
/-
Lemmas about the runs of converted schedules.
-/
namespace Beep.Proof.ArbinRun
open Beep Beep.MtA Beep.Spec.MtA Beep.Spec.ArbinRun Beep.Props.MaccorToArbin

/-! ### labels -/

theorem append_sep {a b x y : List Char} (ha : ∀ c ∈ a, c ≠ '-') (hb : ∀ c ∈ b, c ≠ '-')
    (h : a ++ '-' :: x = b ++ '-' :: y) : a = b := by
  induction a generalizing b with
  | nil =>
    cases b with
    | nil => rfl
    | cons c cs =>
      simp only [List.nil_append, List.cons_append, List.cons.injEq] at h
      exact absurd h.1.symm (hb c (List.mem_cons_self ..))
  | cons d ds ih =>
    cases b with
    | nil =>
      simp only [List.nil_append, List.cons_append, List.cons.injEq] at h
      exact absurd h.1 (ha d (List.mem_cons_self ..))
    | cons c cs =>
      simp only [List.cons_append, List.cons.injEq] at h
      rw [h.1, ih (fun c hc => ha c (List.mem_cons_of_mem _ hc)) (fun c hc => hb c (List.mem_cons_of_mem _ hc)) h.2]

theorem toString_digits (i : Nat) : ∀ c ∈ (toString i).toList, c ≠ '-' := by
  intro c hc e
  have : c.isDigit = true :=
    Nat.isDigit_of_mem_toDigits (b := 10) (by decide) (by decide) (by simpa [toString, Nat.repr] using hc)
  rw [e] at this
  exact absurd this (by decide)

theorem toString_inj (i j : Nat) (h : (toString i : String) = toString j) : i = j := by
  have h1 : Nat.toDigits 10 i = Nat.toDigits 10 j := by
    have := congrArg String.toList h
    simpa [toString, Nat.repr] using this
  have h2 := congrArg (fun l => Nat.ofDigitChars 10 l 0) h1
  simpa [Nat.ofDigitChars_ten_toDigits] using h2

theorem label_inj (i j : Nat) (s t : Step) (h : label i s = label j t) : i = j := by
  have h1 : (label i s).toList = (label j t).toList := by rw [h]
  unfold label at h1
  simp only [String.toList_append] at h1
  have h2 : "-".toList = ['-'] := rfl
  rw [h2, List.append_assoc, List.append_assoc] at h1
  have h3 := append_sep (toString_digits _) (toString_digits _) h1
  have h4 := toString_inj _ _ (String.toList_inj.mp h3)
  omega

/-! ### limits of a converted step -/

theorem number_mem {α : Type} (i : Nat) (l : List α) (k : Nat) (a : α) :
    (k, a) ∈ number i l ↔ i ≤ k ∧ l[k - i]? = some a := by
  induction l generalizing i with
  | nil => simp [number]
  | cons b bs ih =>
    rw [number, List.mem_cons, ih]
    constructor
    · rintro (h | ⟨h1, h2⟩)
      · cases h; simp
      · refine ⟨by omega, ?_⟩
        rw [show k - i = (k - (i + 1)) + 1 by omega, List.getElem?_cons_succ]
        exact h2
    · rintro ⟨h1, h2⟩
      by_cases hk : k = i
      · subst hk
        left
        simp only [Nat.sub_self, List.getElem?_cons_zero, Option.some.injEq] at h2
        rw [h2]
      · right
        refine ⟨by omega, ?_⟩
        rw [show k - i = (k - (i + 1)) + 1 by omega, List.getElem?_cons_succ] at h2
        exact h2

theorem report_log (r : Report) (l : Limit) (h : convertReport r = .ok l) : l.stepLimit = false := by
  unfold convertReport at h
  simp only [bind, Except.bind] at h
  split at h
  · split at h
    · cases h
    · cases h; rfl
  split at h
  · split at h
    · cases h
    · cases h; rfl
  split at h
  · split at h
    · cases h
    · cases h; rfl
  cases h; rfl

theorem mapE_get {α β : Type} (f : α → Except Err β) (l : List α) (r : List β) (h : mapE f l = .ok r) (k : Nat) (b : β) :
    r[k]? = some b ↔ ∃ a, l[k]? = some a ∧ f a = .ok b := by
  induction l generalizing r k with
  | nil => cases h; simp
  | cons a as ih =>
    rw [mapE] at h
    simp only [bind, Except.bind] at h
    split at h
    · cases h
    rename_i b' hb'
    split at h
    · cases h
    rename_i bs hbs
    cases h
    cases k with
    | zero =>
      simp only [List.getElem?_cons_zero, Option.some.injEq]
      constructor
      · rintro rfl; exact ⟨a, rfl, hb'⟩
      · rintro ⟨_, rfl, h⟩; rw [hb'] at h; cases h; rfl
    | succ k =>
      simp only [List.getElem?_cons_succ]
      exact ih bs hbs k

/-- the limits that end a step, by number -/
theorem limits_iff (steps : List Step) (flow : List (Nat × Nat)) (ct : String) (i : Nat) (s : Step)
    (ls : List (Nat × Limit)) (n : Nat) (h : limitsOf steps flow ct i s = .ok (ls, n)) (k : Nat) (l : Limit) :
    ((k, l) ∈ ls ∧ k < n ∧ l.stepLimit = true) ↔
      if s.ends = .absent then k = 0 ∧ l = blankLimit
      else ∃ e, (endsOf s.ends)[k]? = some e ∧ convertEnd steps flow ct i s.type e = .ok l := by
  unfold limitsOf at h
  simp only [bind, Except.bind] at h
  split at h
  · cases h
  rename_i ends hends
  have hE : ∀ (k : Nat) (l : Limit), ends[k]? = some l ↔ (if s.ends = .absent then k = 0 ∧ l = blankLimit
      else ∃ e, (endsOf s.ends)[k]? = some e ∧ convertEnd steps flow ct i s.type e = .ok l) := by
    intro k l
    cases hs : s.ends with
    | absent =>
      rw [hs] at hends
      cases hends
      rw [if_pos rfl]
      cases k with
      | zero => simp [eq_comm]
      | succ k => simp
    | single e =>
      rw [hs] at hends
      simp only at hends
      split at hends
      · cases hends
      rename_i l' hl'
      cases hends
      rw [if_neg (by simp)]
      cases k with
      | zero =>
        simp only [List.getElem?_cons_zero, Option.some.injEq, endsOf]
        constructor
        · rintro rfl; exact ⟨e, rfl, hl'⟩
        · rintro ⟨_, rfl, h⟩; rw [hl'] at h; cases h; rfl
      | succ k => simp [endsOf]
    | many es =>
      rw [hs] at hends
      simp only at hends
      rw [if_neg (by simp)]
      exact mapE_get _ _ _ hends k l
  have hT : ∀ (k : Nat) (l : Limit), ends[k]? = some l → l.stepLimit = true := by
    intro k l hk
    have := (hE k l).mp hk
    split at this
    · rw [this.2]; rfl
    · obtain ⟨e, _, hc⟩ := this
      exact (C32_end_partial _ _ _ _ _ _ _ hc).1
  rw [← hE]
  have hbase : ∀ (extra : List (Nat × Limit)) (n : Nat), (∀ p ∈ extra, p.2.stepLimit = false) → ends.length ≤ n →
      (((k, l) ∈ number 0 ends ++ extra ∧ k < n ∧ l.stepLimit = true) ↔ ends[k]? = some l) := by
    intro extra n hx hn
    constructor
    · rintro ⟨hm, _, hl⟩
      rcases List.mem_append.mp hm with hm | hm
      · simpa using ((number_mem 0 ends k l).mp hm).2
      · have := hx _ hm
        simp only at this
        rw [hl] at this
        cases this
    · intro hk
      refine ⟨List.mem_append_left _ ((number_mem 0 ends k l).mpr ⟨Nat.zero_le _, by simpa using hk⟩), ?_, hT k l hk⟩
      have := (List.getElem?_eq_some_iff.mp hk).1
      omega
  split at h
  · cases h
    simpa using hbase [] _ (by simp) (le_refl _)
  · cases h
  · split at h
    · cases h
    rename_i lr hlr
    cases h
    exact hbase _ _ (by intro p hp; simp only [List.mem_singleton] at hp; rw [hp]; exact report_log _ _ hlr) (by omega)
  · split at h
    · cases h
    rename_i lr hlr
    cases h
    exact hbase _ _ (by intro p hp; simp only [List.mem_singleton] at hp; rw [hp]; exact report_log _ _ hlr) (by omega)
  · cases h
  · cases h
    simpa using hbase [] _ (by simp) (le_refl _)
  · rename_i rs es _ _
    split at h
    · cases h
    rename_i lr hlr
    cases h
    refine hbase _ _ ?_ (by omega)
    intro p hp
    have := (number_mem ends.length lr p.1 p.2).mp hp
    obtain ⟨r, _, hr⟩ := (mapE_get _ _ _ hlr _ _).mp this.2
    exact report_log _ _ hr

/-! ### targets -/

/-- the labels of a converted schedule -/
def Labelled (steps : List Step) (as : List AStep) : Prop :=
  as.length = steps.length ∧ ∀ (q : Nat) (b : AStep), as[q]? = some b → ∃ t, steps[q]? = some t ∧ b.label = label q t

theorem target_label (steps : List Step) (as : List AStep) (hl : Labelled steps as) (i k q : Nat) (t : Step)
    (ht : steps[k]? = some t) : Target as i (label k t) q ↔ q = k := by
  unfold Target
  rw [if_neg (label_ne k t)]
  constructor
  · rintro ⟨b, hb, hbl⟩
    obtain ⟨t', _, ht'⟩ := hl.2 q b hb
    exact label_inj _ _ _ _ (ht'.symm.trans hbl)
  · rintro rfl
    have hlt : q < as.length := by rw [hl.1]; exact (List.getElem?_eq_some_iff.mp ht).1
    refine ⟨as[q], by simp [hlt], ?_⟩
    obtain ⟨t', h1, h2⟩ := hl.2 q as[q] (by simp [hlt])
    rw [ht] at h1
    cases h1
    exact h2

theorem target_end (steps : List Step) (as : List AStep) (hl : Labelled steps as) (i q : Nat) (e : End) (g : String)
    (h0 : e.step ≠ 0) (h1 : g = "Next Step" ↔ e.step = i + 2)
    (h2 : e.step ≠ i + 2 → e.step ≠ 0 → ∃ s, steps[e.step - 1]? = some s ∧ g = label (e.step - 1) s) :
    Target as i g q ↔ q = e.step - 1 := by
  by_cases hs : e.step = i + 2
  · unfold Target
    rw [if_pos (h1.mpr hs)]
    omega
  · obtain ⟨t, ht, hg⟩ := h2 hs h0
    rw [hg]
    exact target_label steps as hl i _ q t ht

/-! ### conditions -/

theorem holds_sat (oper : String) (ho : oper ∈ operators) (x r : Rat) : sat (strip oper) x r ↔ holds oper x r := by
  unfold operators at ho
  have h1 : strip "<= " = "<=" := by decide
  have h2 : strip ">= " = ">=" := by decide
  have h3 : strip "< " = "<" := by decide
  have h4 : strip "> " = ">" := by decide
  have h5 : strip "= " = "=" := by decide
  simp only [List.mem_cons, List.not_mem_nil, or_false] at ho
  rcases ho with rfl | rfl | rfl | rfl | rfl
  · rw [h1]; simp [sat, holds]
  · rw [h2]; simp [sat, holds]
  · rw [h3]; simp [sat, holds]
  · rw [h4]; simp [sat, holds]
  · rw [h5]; simp [sat, holds]

theorem counter_ne (n : Nat) (t : String) (h : t.toList.head? ≠ some 'T') : t ≠ "TC_Counter" ++ toString n := by
  rintro rfl
  exact h (by simp [String.toList_append])

theorem counter_inj (n k : Nat) (h : "TC_Counter" ++ toString n = "TC_Counter" ++ toString k) : n = k := by
  have h1 := congrArg String.toList h
  simp only [String.toList_append] at h1
  exact toString_inj _ _ (String.toList_inj.mp (List.append_cancel_left h1))

theorem counterOf_acts (t : SType) (ht : Acts t) : ∃ e, counterOf t = .error e := by
  cases t with
  | loop n => exact absurd rfl (ht.2.1 n)
  | doo n => exact absurd rfl (ht.1 n)
  | _ => exact ⟨_, rfl⟩

theorem endType_of (steps : List Step) (flow : List (Nat × Nat)) (ct : String) (i : Nat) (t : SType) (e : End)
    (l : Limit) (h : convertEnd steps flow ct i t e = .ok l) (ht : Acts t) :
    e.endType = "Voltage" ∨ e.endType = "Current" ∨ e.endType = "StepTime" := by
  obtain ⟨err, hcnt⟩ := counterOf_acts t ht
  unfold convertEnd at h
  simp only [bind, Except.bind] at h
  split at h
  · cases h
  split at h
  · left; assumption
  split at h
  · rename_i hh; right; left; exact hh.1
  split at h
  · rename_i hh; right; left; exact hh.1
  split at h
  · right; right; assumption
  rw [hcnt] at h
  simp only at h
  split at h
  · cases h
  split at h
  · cases h
  cases h

theorem signed_magnitude (t : SType) (x : Rat) (h1 : t = .charge → 0 ≤ x) (h2 : t = .dischrge → x ≤ 0)
    (ht : t = .charge ∨ t = .dischrge) : signed t (magnitude x) = x := by
  unfold magnitude
  rcases ht with rfl | rfl
  · have := h1 rfl
    rw [if_neg (not_lt.mpr this)]
    rfl
  · have := h2 rfl
    show -(if x < 0 then -x else x) = x
    split
    · ring
    · linarith

theorem left_cases (l : Limit) (m : Measured) (s : State) :
    (l.left = "PV_CHAN_Voltage" → (Reached m s l ↔ sat l.sign m.voltage l.right)) ∧
    (l.left = "PV_CHAN_Current" ∨ l.left = "PV_CHAN_CV_Stage_Current" →
      (Reached m s l ↔ sat l.sign m.current l.right)) ∧
    (l.left = "PV_CHAN_Step_Time" → (Reached m s l ↔ sat l.sign m.time l.right)) ∧
    (∀ n : Nat, l.left = "TC_Counter" ++ toString n → (Reached m s l ↔ sat l.sign (s.count n : Rat) l.right)) := by
  have c1 : ∀ n : Nat, "PV_CHAN_Voltage" ≠ "TC_Counter" ++ toString n := fun n => counter_ne n _ (by decide)
  have c2 : ∀ n : Nat, "PV_CHAN_Current" ≠ "TC_Counter" ++ toString n := fun n => counter_ne n _ (by decide)
  have c3 : ∀ n : Nat, "PV_CHAN_CV_Stage_Current" ≠ "TC_Counter" ++ toString n := fun n => counter_ne n _ (by decide)
  have c4 : ∀ n : Nat, "PV_CHAN_Step_Time" ≠ "TC_Counter" ++ toString n := fun n => counter_ne n _ (by decide)
  unfold Reached
  refine ⟨fun h => ?_, fun h => ?_, fun h => ?_, fun n h => ?_⟩
  · rw [h]; simp; intro x hx; exact absurd hx (c1 x)
  · rcases h with h | h
    · rw [h]; simp; intro x hx; exact absurd hx (c2 x)
    · rw [h]; simp; intro x hx; exact absurd hx (c3 x)
  · rw [h]; simp; intro x hx; exact absurd hx (c4 x)
  · rw [h]
    have d1 := (c1 n).symm
    have d2 := (c2 n).symm
    have d3 := (c3 n).symm
    have d4 := (c4 n).symm
    constructor
    · rintro (⟨a, _⟩ | ⟨a | a, _⟩ | ⟨a, _⟩ | ⟨k, a, b⟩)
      · exact absurd a d1
      · exact absurd a d2
      · exact absurd a d3
      · exact absurd a d4
      · rw [counter_inj n k a]; exact b
    · intro b
      exact Or.inr (Or.inr (Or.inr ⟨n, rfl, b⟩))

theorem elapsed_seconds (tt : TimeText) (x : Rat) (h : elapsed tt = .ok x) (hf : tt.frac.length ≤ 6) :
    x = seconds tt := by
  have hr : if tt.short then tt.seconds < 10 else tt.hours < 24 ∧ tt.minutes < 60 ∧ tt.seconds < 60 := by
    unfold elapsed at h
    split at h
    · rename_i hs
      rw [if_pos hs]
      split at h
      · assumption
      · cases h
    · rename_i hs
      rw [if_neg hs]
      split at h
      · assumption
      · cases h
  rw [C32_time_partial tt hf hr] at h
  cases h
  rfl

/-- a converted end entry of a step that acts on the cell holds exactly when the entry holds -/
theorem end_iff (steps : List Step) (flow : List (Nat × Nat)) (ct : String) (i : Nat) (t : SType) (e : End)
    (l : Limit) (h : convertEnd steps flow ct i t e = .ok l) (ht : Acts t) (ho : e.oper ∈ operators)
    (hd : e.endType = "Current" → t = .dischrge → e.oper = "<= " ∨ e.oper = "< " ∨ e.oper = "= ")
    (hf : ∀ tt, e.value = .time tt → tt.frac.length ≤ 6) (m : Measured)
    (h1 : t = .charge → 0 ≤ m.current) (h2 : t = .dischrge → m.current ≤ 0) (s : State) :
    Reached m s l ↔ Ended m e := by
  obtain ⟨_, _, hV, hC, hT, _⟩ := C32_end_partial _ _ _ _ _ _ _ h
  obtain ⟨k1, k2, k3, _⟩ := left_cases l m s
  unfold Ended
  rcases endType_of _ _ _ _ _ _ _ h ht with he | he | he
  · obtain ⟨a, v, b, c⟩ := hV he
    rw [k1 a, c, holds_sat _ ho, he, b]
    simp
  · obtain ⟨a, v, b, c, d⟩ := hC he
    rw [k2 a.symm, he, b]
    have d' := d (by
      intro hh
      rcases hd he hh with r | r | r <;> rw [r] <;> decide) (magnitude m.current)
    rw [signed_magnitude t _ h1 h2 c] at d'
    rw [d', holds_sat _ ho]
    simp
  · obtain ⟨a, b, tt, c, d⟩ := hT he
    rw [k3 a, b, he, c, elapsed_seconds tt _ d (hf tt c)]
    simp [sat]

/-! ### controls -/

theorem control_acts (t : Step) (c : Ctrl) (h : MtA.control t = .ok c) (ht : Acts t.type) :
    c.type ≠ "Set Variable(s)" := by
  obtain ⟨a1, a2, a3, a4⟩ := ht
  unfold MtA.control at h
  repeat' split at h
  all_goals first
    | (cases h; done)
    | (cases h; simp; done)
    | simp_all

theorem after_acts (c : Ctrl) (s : State) (h : c.type ≠ "Set Variable(s)") : after c s = s := by
  unfold after
  rw [if_neg h]

theorem bit_two_pow (n k j : Nat) : bit (some (2 ^ (n + k) : Rat)) j = decide (n + k = j) := by
  unfold bit
  have : ((2 ^ (n + k) : Rat)).num.toNat = 2 ^ (n + k) := by
    have : ((2 ^ (n + k) : Rat)) = ((2 ^ (n + k) : Nat) : Rat) := by push_cast; rfl
    rw [this, Rat.num_natCast]
    rfl
  simp only [this, Nat.testBit_two_pow]

theorem bit_zero (j : Nat) : bit (some 0) j = false := by
  unfold bit
  simp

theorem control_do (t : Step) (n : Nat) (c : Ctrl) (h : MtA.control t = .ok c) (hm : t.mode = .unset)
    (ht : t.type = .doo n) (s : State) : after c s = ⟨s.pc, update s.count n 0, s.cycle⟩ := by
  unfold MtA.control at h
  rw [hm, ht] at h
  simp only at h
  split at h
  · rename_i hn
    cases h
    unfold after
    rw [if_pos rfl]
    simp only [bit_zero, bit_two_pow n 15, Bool.false_eq_true, and_false, if_false, State.mk.injEq, true_and, and_true]
    funext m
    unfold update
    by_cases h : m = n
    · subst h; rw [if_pos rfl, if_pos ⟨by omega, by simp⟩]
    · rw [if_neg h, if_neg (by simp; omega)]
  · cases h

theorem control_loop (t : Step) (n : Nat) (c : Ctrl) (h : MtA.control t = .ok c) (hm : t.mode = .unset)
    (ht : t.type = .loop n) (s : State) :
    after c s = ⟨s.pc, update s.count n (s.count n + 1), s.cycle⟩ ∧ (n = 1 ∨ n = 2) := by
  unfold MtA.control at h
  rw [hm, ht] at h
  simp only at h
  split at h
  · rename_i hn
    cases h
    refine ⟨?_, hn⟩
    unfold after
    rw [if_pos rfl]
    have hb := bit_two_pow n 0
    rw [Nat.add_zero] at hb
    simp only [bit_zero, hb, Bool.false_eq_true, and_false, if_false, State.mk.injEq, true_and]
    constructor
    · funext m
      unfold update
      by_cases h : m = n
      · subst h; rw [if_pos rfl, if_pos ⟨by omega, by simp⟩]
      · rw [if_neg h, if_neg (by simp; omega)]
    · rw [if_neg (by simp; omega)]
  · cases h

theorem control_adv (t : Step) (c : Ctrl) (h : MtA.control t = .ok c) (hm : t.mode = .unset)
    (ht : t.type = .adv) (s : State) : after c s = ⟨s.pc, s.count, s.cycle + 1⟩ := by
  unfold MtA.control at h
  rw [hm, ht] at h
  cases h
  unfold after
  rw [if_pos rfl]
  have b1 : ∀ m, bit (some (15 : Rat)) (m + 15) = false := by
    intro m
    show (15 : Nat).testBit (m + 15) = false
    exact Nat.testBit_lt_two_pow (by
      calc 15 < 2 ^ 15 := by decide
        _ ≤ 2 ^ (m + 15) := Nat.pow_le_pow_right (by decide) (by omega))
  have b2 : ∀ m, 1 ≤ m → bit (some (1 : Rat)) m = false := by
    intro m hm
    show (1 : Nat).testBit m = false
    exact Nat.testBit_lt_two_pow (by
      calc 1 < 2 ^ 1 := by decide
        _ ≤ 2 ^ m := Nat.pow_le_pow_right (by decide) hm)
  simp only [b1, Bool.false_eq_true, and_false, if_false, State.mk.injEq, true_and]
  constructor
  · funext m
    rw [if_neg]
    rintro ⟨a, b⟩
    rw [b2 m a] at b
    cases b
  · rw [if_pos]
    decide

theorem control_end (t : Step) (c : Ctrl) (h : MtA.control t = .ok c) (hm : t.mode = .unset)
    (ht : t.type = .ende) (s : State) : after c s = s := by
  unfold MtA.control at h
  rw [hm, ht] at h
  cases h
  rfl

/-! ### schedules -/

theorem addendum_acts (flow : List (Nat × Nat)) (i : Nat) (t s' : Step) (h : addendum flow i t = .ok s')
    (hn : ∀ n, t.type ≠ .loop n) : s' = t := by
  unfold addendum at h
  split at h
  · rename_i n _ hh
    exact absurd hh (hn n)
  · cases h; rfl

/-- what is known about a step of a converted schedule -/
theorem schedule_step (steps : List Step) (ps : List (Nat × Nat)) (hp : pairs [] 0 steps = some ps)
    (h2 : ∀ p ∈ ps, 2 ≤ p.2) (as : List AStep) (left : List Step) (h : createSdu steps = .ok (as, left)) :
    Labelled steps as ∧ ∀ (i : Nat) (t : Step), steps[i]? = some t →
      ∃ a s', as[i]? = some a ∧ compile steps (ps.map (fun p => (p.1, p.2 + 1))) i t = .ok (a, s') := by
  unfold createSdu at h
  rw [C33_flow_partial steps ps hp h2] at h
  simp only [bind, Except.bind] at h
  split at h
  · cases h
  rename_i out hout
  cases h
  obtain ⟨hlen, hget⟩ := compileAll_get _ _ _ _ _ hout
  have hall : ∀ (i : Nat) (t : Step), steps[i]? = some t → ∃ a s', (out.map Prod.fst)[i]? = some a ∧
      compile steps (ps.map (fun p => (p.1, p.2 + 1))) i t = .ok (a, s') := by
    intro i t ht
    obtain ⟨r, hr, hc⟩ := hget i t ht
    rw [Nat.zero_add] at hc
    exact ⟨r.1, r.2, by rw [List.getElem?_map, hr]; rfl, hc⟩
  refine ⟨⟨by simp [hlen], ?_⟩, hall⟩
  intro q b hb
  have hlt : q < steps.length := by
    have := (List.getElem?_eq_some_iff.mp hb).1
    simp only [List.length_map] at this
    omega
  obtain ⟨a, s', ha, hc⟩ := hall q steps[q] (by simp [hlt])
  rw [hb] at ha
  cases ha
  refine ⟨steps[q], by simp [hlt], ?_⟩
  unfold compile at hc
  simp only [bind, Except.bind] at hc
  split at hc
  · cases hc
  split at hc
  · cases hc
  split at hc
  · cases hc
  cases hc
  rfl

theorem compile_parts (steps : List Step) (flow : List (Nat × Nat)) (i : Nat) (t s' : Step) (a : AStep)
    (h : compile steps flow i t = .ok (a, s')) :
    MtA.control t = .ok a.ctrl ∧ addendum flow i t = .ok s' ∧
      limitsOf steps flow a.ctrl.type i s' = .ok (a.limits, a.limitNum) := by
  unfold compile at h
  simp only [bind, Except.bind] at h
  split at h
  · cases h
  rename_i c hc
  split at h
  · cases h
  rename_i s1 hs1
  split at h
  · cases h
  rename_i l hl
  cases h
  exact ⟨hc, hs1, hl⟩

theorem limits_exist (steps : List Step) (flow : List (Nat × Nat)) (ct : String) (i : Nat) (s : Step)
    (ls : List (Nat × Limit)) (n : Nat) (h : limitsOf steps flow ct i s = .ok (ls, n)) (k : Nat) (e : End)
    (he : (endsOf s.ends)[k]? = some e) : ∃ l, convertEnd steps flow ct i s.type e = .ok l := by
  unfold limitsOf at h
  simp only [bind, Except.bind] at h
  split at h
  · cases h
  rename_i ends hends
  cases hs : s.ends with
  | absent => rw [hs] at he; simp [endsOf] at he
  | single e' =>
    rw [hs] at hends he
    simp only at hends
    split at hends
    · cases hends
    rename_i l' hl'
    cases k with
    | zero =>
      simp only [endsOf, List.getElem?_cons_zero, Option.some.injEq] at he
      rw [← he]
      exact ⟨l', hl'⟩
    | succ k => simp [endsOf] at he
  | many es =>
    rw [hs] at hends he
    simp only at hends
    have hk : k < ends.length := by
      rw [mapE_length _ _ _ hends]
      exact (List.getElem?_eq_some_iff.mp he).1
    obtain ⟨e', h1, h2⟩ := (mapE_get _ _ _ hends k ends[k]).mp (by simp [hk])
    simp only [endsOf] at he
    rw [he] at h1
    cases h1
    exact ⟨_, h2⟩

theorem blank_reached (m : Measured) (s : State) : Reached m s blankLimit ↔ 0 < m.time := by
  rw [(left_cases blankLimit m s).2.2.1 rfl]
  simp [blankLimit, sat]

/-- a converted loop: the addendum sends below the number to the step after the Do, the end entry
to its step -/
theorem loop_limits (steps : List Step) (flow : List (Nat × Nat)) (ct : String) (i n k : Nat) (v : Rat) (g : Nat)
    (l : Limit) (hf : flowOf flow i = some k)
    (h : convertEnd steps flow ct i (.loop n) { endType := "Loop Addendum", oper := "< ", step := g, value := .num v } = .ok l) :
    l.left = "TC_Counter" ++ toString n ∧ l.sign = "<" ∧ l.right = v ∧ ∃ t, steps[k]? = some t ∧ l.goto = label k t := by
  unfold convertEnd at h
  simp only [bind, Except.bind] at h
  split at h
  · cases h
  rw [if_neg (by decide), if_neg (fun hh => absurd hh.1 (by decide)), if_neg (fun hh => absurd hh.1 (by decide)),
    if_neg (by decide), if_neg (by decide), if_pos trivial] at h
  simp only [counterOf, EVal.num?, hf] at h
  split at h
  · cases h
  rename_i g hg
  cases h
  unfold nameOf at hg
  split at hg
  · cases hg
  rename_i t htk
  cases hg
  exact ⟨rfl, rfl, rfl, t, htk, rfl⟩

/-! ### nested loops -/

/-- the pairs found from a position on: the loop, the Do of the same number behind it or on the
stack -/
theorem pairs_mem (stack : List (Nat × Nat)) (i : Nat) (ss : List Step) (ps : List (Nat × Nat))
    (h : pairs stack i ss = some ps) (p : Nat × Nat) (hp : p ∈ ps) :
    ∃ n, i ≤ p.1 ∧ (ss[p.1 - i]?).map Step.type = some (.loop n) ∧
      ((p.2, n) ∈ stack ∨ (i ≤ p.2 ∧ p.2 < p.1 ∧ (ss[p.2 - i]?).map Step.type = some (.doo n))) := by
  induction ss generalizing stack i ps with
  | nil =>
    unfold pairs at h
    split at h
    · cases h; cases hp
    · cases h
  | cons s ss ih =>
    have shift : ∀ (stack' : List (Nat × Nat)) (ps' : List (Nat × Nat)), pairs stack' (i + 1) ss = some ps' → p ∈ ps' →
        ∃ n, i ≤ p.1 ∧ ((s :: ss)[p.1 - i]?).map Step.type = some (.loop n) ∧
          ((p.2, n) ∈ stack' ∨ (i ≤ p.2 ∧ p.2 < p.1 ∧ ((s :: ss)[p.2 - i]?).map Step.type = some (.doo n))) := by
      intro stack' ps' h' hp'
      obtain ⟨n, a, b, c⟩ := ih stack' (i + 1) ps' h' hp'
      refine ⟨n, by omega, ?_, ?_⟩
      · rw [show p.1 - i = (p.1 - (i + 1)) + 1 by omega, List.getElem?_cons_succ]; exact b
      · rcases c with c | ⟨c1, c2, c3⟩
        · exact Or.inl c
        · refine Or.inr ⟨by omega, c2, ?_⟩
          rw [show p.2 - i = (p.2 - (i + 1)) + 1 by omega, List.getElem?_cons_succ]; exact c3
    unfold pairs at h
    split at h
    · rename_i n hn
      split at h
      · cases h
      · obtain ⟨k, a, b, c⟩ := shift _ _ h hp
        refine ⟨k, a, b, ?_⟩
        rcases c with c | c
        · rcases List.mem_cons.mp c with e | e
          · simp only [Prod.mk.injEq] at e
            obtain ⟨e1, e2⟩ := e
            have hlt : p.1 ≠ i := by
              intro he
              rw [he, Nat.sub_self, List.getElem?_cons_zero] at b
              simp only [Option.map_some, Option.some.injEq] at b
              rw [hn] at b
              cases b
            refine Or.inr ⟨by omega, by omega, ?_⟩
            rw [e1, Nat.sub_self, List.getElem?_cons_zero, e2]
            simp only [Option.map_some, hn]
          · exact Or.inl e
        · exact Or.inr c
    · rename_i n hn
      split at h
      · cases h
      rename_i d m rest
      split at h
      · rename_i hmn
        obtain ⟨l, hl, rfl⟩ := Option.map_eq_some_iff.mp h
        rcases List.mem_cons.mp hp with e | e
        · subst e
          refine ⟨n, le_refl _, by simp [hn], Or.inl ?_⟩
          rw [hmn]
          exact List.mem_cons_self ..
        · obtain ⟨k, a, b, c⟩ := shift _ _ hl e
          refine ⟨k, a, b, ?_⟩
          rcases c with c | c
          · exact Or.inl (List.mem_cons_of_mem _ c)
          · exact Or.inr c
      · cases h
    · exact shift _ _ h hp

/-- every Loop has its pair -/
theorem pairs_all (stack : List (Nat × Nat)) (i : Nat) (ss : List Step) (ps : List (Nat × Nat))
    (h : pairs stack i ss = some ps) (j : Nat) (s : Step) (n : Nat) (hs : ss[j]? = some s) (hn : s.type = .loop n) :
    ∃ d, (i + j, d) ∈ ps := by
  induction ss generalizing stack i ps j with
  | nil => simp at hs
  | cons t ss ih =>
    unfold pairs at h
    cases j with
    | zero =>
      simp only [List.getElem?_cons_zero, Option.some.injEq] at hs
      subst hs
      rw [hn] at h
      simp only at h
      split at h
      · cases h
      split at h
      · obtain ⟨l, _, rfl⟩ := Option.map_eq_some_iff.mp h
        exact ⟨_, List.mem_cons_self ..⟩
      · cases h
    | succ j =>
      simp only [List.getElem?_cons_succ] at hs
      have e : i + (j + 1) = i + 1 + j := by omega
      rw [e]
      split at h
      · split at h
        · cases h
        · exact ih _ _ _ h j hs
      · split at h
        · cases h
        split at h
        · obtain ⟨l, hl, rfl⟩ := Option.map_eq_some_iff.mp h
          obtain ⟨d, hd⟩ := ih _ _ _ hl j hs
          exact ⟨d, List.mem_cons_of_mem _ hd⟩
        · cases h
      · exact ih _ _ _ h j hs

/-- positions of the open loops: below the current position, the one opened last first -/
def Ordered (i : Nat) (stack : List (Nat × Nat)) : Prop :=
  stack.Pairwise (fun p q => q.1 < p.1) ∧ ∀ p ∈ stack, p.1 < i

/-- two loops are the same, or one is inside the other or behind it -/
theorem pairs_laminar (stack : List (Nat × Nat)) (i : Nat) (ss : List Step) (ps : List (Nat × Nat))
    (h : pairs stack i ss = some ps) (ho : Ordered i stack) (p q : Nat × Nat) (hp : p ∈ ps) (hq : q ∈ ps) :
    p = q ∨ (p.2 < q.2 ∧ (q.1 < p.1 ∨ p.1 < q.2)) ∨ (q.2 < p.2 ∧ (p.1 < q.1 ∨ q.1 < p.2)) := by
  induction ss generalizing stack i ps with
  | nil =>
    unfold pairs at h
    split at h
    · cases h; cases hp
    · cases h
  | cons s ss ih =>
    have hord : Ordered (i + 1) stack := ⟨ho.1, fun p hp => by have := ho.2 p hp; omega⟩
    unfold pairs at h
    split at h
    · split at h
      · cases h
      · refine ih _ _ _ h ⟨List.pairwise_cons.mpr ⟨fun p hp => ho.2 p hp, ho.1⟩, ?_⟩ hp hq
        intro p hp
        rcases List.mem_cons.mp hp with e | e
        · subst e; simp
        · have := ho.2 p e; omega
    · split at h
      · cases h
      rename_i d m rest
      split at h
      · obtain ⟨l, hl, rfl⟩ := Option.map_eq_some_iff.mp h
        have hrest : Ordered (i + 1) rest := ⟨(List.pairwise_cons.mp ho.1).2,
          fun p hp => by have := ho.2 p (List.mem_cons_of_mem _ hp); omega⟩
        have hd : d < i := ho.2 (d, m) (List.mem_cons_self ..)
        have key : ∀ r ∈ l, (r.2 < d ∧ i < r.1) ∨ (i < r.2 ∧ i < r.1) := by
          intro r hr
          obtain ⟨n, a, _, c⟩ := pairs_mem _ _ _ _ hl r hr
          rcases c with c | c
          · have := (List.pairwise_cons.mp ho.1).1 _ c
            simp only at this
            exact Or.inl ⟨this, by omega⟩
          · exact Or.inr ⟨by omega, by omega⟩
        rcases List.mem_cons.mp hp with e | e <;> rcases List.mem_cons.mp hq with f | f
        · left; rw [e, f]
        · subst e
          rcases key q f with k | k
          · right; right; exact ⟨k.1, Or.inl k.2⟩
          · right; left; exact ⟨by simp only; omega, Or.inr k.1⟩
        · subst f
          rcases key p e with k | k
          · right; left; exact ⟨k.1, Or.inl k.2⟩
          · right; right; exact ⟨by simp only; omega, Or.inr k.1⟩
        · exact ih _ _ _ hl hrest e f
      · cases h
    · exact ih _ _ _ h hord hp hq

/-- a number is not used again inside its loop -/
theorem pairs_fresh (stack : List (Nat × Nat)) (i : Nat) (ss : List Step) (ps : List (Nat × Nat))
    (h : pairs stack i ss = some ps) (ho : Ordered i stack) (d n : Nat) (hd : (d, n) ∈ stack) (l : Nat) (hl : (l, d) ∈ ps)
    (j : Nat) (hj : i ≤ j) (hjl : j < l) : (ss[j - i]?).map Step.type ≠ some (.doo n) := by
  induction ss generalizing stack i ps with
  | nil => simp
  | cons s ss ih =>
    have hord : Ordered (i + 1) stack := ⟨ho.1, fun p hp => by have := ho.2 p hp; omega⟩
    have shift : j ≠ i → (ss[j - (i + 1)]?).map Step.type ≠ some (.doo n) →
        (((s :: ss)[j - i]?).map Step.type ≠ some (.doo n)) := by
      intro hne h1
      rw [show j - i = (j - (i + 1)) + 1 by omega, List.getElem?_cons_succ]
      exact h1
    unfold pairs at h
    split at h
    · rename_i k hk
      split at h
      · cases h
      · rename_i hfree
        have hkn : k ≠ n := by
          rintro rfl
          exact hfree (List.mem_map.mpr ⟨_, hd, rfl⟩)
        by_cases hji : j = i
        · subst hji
          rw [Nat.sub_self, List.getElem?_cons_zero]
          simp only [Option.map_some, hk]
          intro e
          simp only [Option.some.injEq, SType.doo.injEq] at e
          exact hkn e
        · refine shift hji (ih _ _ _ h ⟨List.pairwise_cons.mpr ⟨fun p hp => ho.2 p hp, ho.1⟩, ?_⟩
            (List.mem_cons_of_mem _ hd) hl (by omega))
          intro p hp
          rcases List.mem_cons.mp hp with e | e
          · subst e; simp
          · have := ho.2 p e; omega
    · rename_i k hk
      split at h
      · cases h
      rename_i d' m rest
      split at h
      · obtain ⟨ps', hps', rfl⟩ := Option.map_eq_some_iff.mp h
        by_cases hji : j = i
        · subst hji
          rw [Nat.sub_self, List.getElem?_cons_zero]
          simp only [Option.map_some, hk]
          intro e
          simp at e
        · have hrest : Ordered (i + 1) rest := ⟨(List.pairwise_cons.mp ho.1).2,
            fun p hp => by have := ho.2 p (List.mem_cons_of_mem _ hp); omega⟩
          have hdlt := ho.2 _ hd
          simp only at hdlt
          rcases List.mem_cons.mp hl with e | e
          · simp only [Prod.mk.injEq] at e
            omega
          · have hd' : (d, n) ∈ rest := by
              rcases List.mem_cons.mp hd with f | f
              · exfalso
                obtain ⟨x, _, _, c⟩ := pairs_mem _ _ _ _ hps' _ e
                rcases c with c | c
                · have := (List.pairwise_cons.mp ho.1).1 _ c
                  simp only [Prod.mk.injEq] at f this
                  omega
                · simp only at c
                  omega
              · exact f
            exact shift hji (ih _ _ _ hps' hrest hd' e (by omega))
      · cases h
    · rename_i hnd hnl
      by_cases hji : j = i
      · subst hji
        rw [Nat.sub_self, List.getElem?_cons_zero]
        simp only [Option.map_some]
        intro e
        exact hnd n (by simpa using e)
      · exact shift hji (ih _ _ _ h hord hd hl (by omega))

theorem pairs_fresh_new (stack : List (Nat × Nat)) (i : Nat) (ss : List Step) (ps : List (Nat × Nat))
    (h : pairs stack i ss = some ps) (ho : Ordered i stack) (d n : Nat) (hi : i ≤ d)
    (hd : (ss[d - i]?).map Step.type = some (.doo n)) (l : Nat) (hl : (l, d) ∈ ps)
    (j : Nat) (hj : d < j) (hjl : j < l) : (ss[j - i]?).map Step.type ≠ some (.doo n) := by
  induction ss generalizing stack i ps with
  | nil => simp
  | cons s ss ih =>
    have hord : Ordered (i + 1) stack := ⟨ho.1, fun p hp => by have := ho.2 p hp; omega⟩
    have down : ∀ k, i + 1 ≤ k → (s :: ss)[k - i]? = ss[k - (i + 1)]? := by
      intro k hk
      rw [show k - i = (k - (i + 1)) + 1 by omega, List.getElem?_cons_succ]
    rw [down j (by omega)]
    unfold pairs at h
    split at h
    · rename_i k hk
      split at h
      · cases h
      · have hpush : Ordered (i + 1) ((i, k) :: stack) := by
          refine ⟨List.pairwise_cons.mpr ⟨fun p hp => ho.2 p hp, ho.1⟩, ?_⟩
          intro p hp
          rcases List.mem_cons.mp hp with e | e
          · subst e; simp
          · have := ho.2 p e; omega
        by_cases hdi : d = i
        · subst hdi
          rw [Nat.sub_self, List.getElem?_cons_zero] at hd
          simp only [Option.map_some, hk, Option.some.injEq, SType.doo.injEq] at hd
          subst hd
          exact pairs_fresh _ _ _ _ h hpush d k (List.mem_cons_self ..) l hl j (by omega) hjl
        · rw [down d (by omega)] at hd
          exact ih _ _ _ h hpush (by omega) hd hl
    · rename_i k hk
      have hdi : d ≠ i := by
        rintro rfl
        rw [Nat.sub_self, List.getElem?_cons_zero] at hd
        simp only [Option.map_some, hk] at hd
        simp at hd
      rw [down d (by omega)] at hd
      split at h
      · cases h
      rename_i d' m rest
      split at h
      · obtain ⟨ps', hps', rfl⟩ := Option.map_eq_some_iff.mp h
        have hrest : Ordered (i + 1) rest := ⟨(List.pairwise_cons.mp ho.1).2,
          fun p hp => by have := ho.2 p (List.mem_cons_of_mem _ hp); omega⟩
        rcases List.mem_cons.mp hl with e | e
        · simp only [Prod.mk.injEq] at e
          omega
        · exact ih _ _ _ hps' hrest (by omega) hd e
      · cases h
    · rename_i hnd hnl
      have hdi : d ≠ i := by
        rintro rfl
        rw [Nat.sub_self, List.getElem?_cons_zero] at hd
        exact hnd n (by simpa using hd)
      rw [down d (by omega)] at hd
      exact ih _ _ _ h hord (by omega) hd hl

/-- the facts about the loops of a procedure -/
theorem nested_facts (steps : List Step) (ps : List (Nat × Nat)) (h : pairs [] 0 steps = some ps) :
    (∀ p ∈ ps, ∃ n, p.2 < p.1 ∧ (steps[p.1]?).map Step.type = some (.loop n) ∧
      (steps[p.2]?).map Step.type = some (.doo n) ∧
      ∀ j, p.2 < j → j < p.1 → (steps[j]?).map Step.type ≠ some (.doo n)) ∧
    (∀ p ∈ ps, ∀ q ∈ ps, p = q ∨ (p.2 < q.2 ∧ (q.1 < p.1 ∨ p.1 < q.2)) ∨ (q.2 < p.2 ∧ (p.1 < q.1 ∨ q.1 < p.2))) ∧
    (∀ (j : Nat) (t : Step) (n : Nat), steps[j]? = some t → t.type = .loop n → ∃ d, (j, d) ∈ ps) := by
  have ho : Ordered 0 [] := ⟨List.Pairwise.nil, by simp⟩
  refine ⟨?_, ?_, ?_⟩
  · intro p hp
    obtain ⟨n, _, b, c⟩ := pairs_mem _ _ _ _ h p hp
    rcases c with c | ⟨_, c2, c3⟩
    · cases c
    · refine ⟨n, c2, by simpa using b, by simpa using c3, ?_⟩
      intro j hj hjl
      have := pairs_fresh_new _ _ _ _ h ho p.2 n (Nat.zero_le _) c3 p.1 hp j hj hjl
      simpa using this
  · intro p hp q hq
    exact pairs_laminar _ _ _ _ h ho p q hp hq
  · intro j t n ht hn
    obtain ⟨d, hd⟩ := pairs_all _ _ _ _ h j t n ht hn
    exact ⟨d, by simpa using hd⟩

end Beep.Proof.ArbinRun
