import Verif.Proof.RoundTrip
/-
C152: a Maccor procedure that is converted to Biologic and back.
-/
namespace Beep.Props.RoundTrip
open Beep Beep.Units Beep.RoundTrip Beep.Spec.RoundTrip Beep.Spec.Units Beep.Proof.RoundTrip

theorem rows_build (A : Nat → MtB.Step → MtB.Seq → Prop)
    (B : Nat → BtM.BSeq → BtM.MStep → Prop) (i : Nat) (l : List MtB.Step) (seqs : List MtB.Seq)
    (h : Rows A i l seqs)
    (hb : ∀ k s q, l[k]? = some s → A (i + k) s q → ∃ t, B (i + k) (asSeq q) t ∧ SameStep s t) :
    ∃ out, Rows B i (seqs.map asSeq) out ∧ List.Forall₂ SameStep l out := by
  induction l generalizing i seqs with
  | nil => cases seqs with
    | nil => exact ⟨[], trivial, .nil⟩
    | cons _ _ => exact h.elim
  | cons s ss ih => cases seqs with
    | nil => exact h.elim
    | cons q qs =>
      obtain ⟨t, h1, h2⟩ := hb 0 s q (by simp) h.1
      obtain ⟨out, h3, h4⟩ := ih (i + 1) qs h.2 (fun k a b hk hA => by
        have := hb (k + 1) a b (by simpa using hk) (by rw [show i + (k + 1) = i + 1 + k by omega]; exact hA)
        rw [show i + (k + 1) = i + 1 + k by omega] at this
        exact this)
      exact ⟨t :: out, ⟨h1, h3⟩, .cons h2 h4⟩

theorem rows_get {α β : Type} (R : Nat → α → β → Prop) (i : Nat) (l : List α) (m : List β) (h : Rows R i l m) (k : Nat) (a : α)
    (hk : l[k]? = some a) : ∃ b, m[k]? = some b ∧ R (i + k) a b := by
  induction l generalizing i m k with
  | nil => simp at hk
  | cons x xs ih => cases m with
    | nil => exact h.elim
    | cons y ys => cases k with
      | zero => simp at hk; subst hk; exact ⟨y, by simp, h.1⟩
      | succ k =>
        obtain ⟨b, h1, h2⟩ := ih (i + 1) ys h.2 k (by simpa using hk)
        exact ⟨b, by simpa using h1, by rw [show i + (k + 1) = i + 1 + k by omega]; exact h2⟩

theorem rows_length {α β : Type} (R : Nat → α → β → Prop) (i : Nat) (l : List α) (m : List β) (h : Rows R i l m) :
    m.length = l.length := by
  induction l generalizing i m with
  | nil => cases m with
    | nil => rfl
    | cons _ _ => exact h.elim
  | cons x xs ih => cases m with
    | nil => exact h.elim
    | cons y ys => simp [ih (i + 1) ys h.2]

theorem part_kind (nums : Int → Option (List Int)) (n lo hi e : Int) (s : MtB.Step) (k : Int) (q : MtB.Seq)
    (h : MtB.convertPart nums n lo hi e s k = .ok q) : q.ctrlType ≠ "Loop" := by
  obtain ⟨c, hc, h1, _⟩ := convertPart_spec _ _ _ _ _ s _ q h
  rcases control_cases s c hc with ⟨_, rfl⟩ | ⟨_, _, d, _, rfl⟩ | ⟨_, _, d, _, rfl⟩ <;> rw [h1] <;> simp

theorem rows_kinds (n : Int) (nums : Int → Option (List Int)) (i : Nat) (l : List MtB.Step)
    (seqs : List MtB.Seq)
    (h : Rows (fun k s q => MtB.convertPart nums ((k : Int) + 1) 0 n n s (k : Int) = .ok q) i l seqs) :
    ∀ q ∈ seqs.map asSeq, q.ctrlType ≠ "Loop" := by
  induction l generalizing i seqs with
  | nil => cases seqs with
    | nil => simp
    | cons _ _ => exact h.elim
  | cons s ss ih => cases seqs with
    | nil => exact h.elim
    | cons q qs =>
      intro x hx
      simp only [List.map_cons, List.mem_cons] at hx
      rcases hx with rfl | hx
      · exact part_kind _ _ _ _ _ _ _ _ h.1
      · exact ih (i + 1) qs h.2 x hx

/-- C152 (partial: procedures of rest and discharge steps, without loops, cycle advances, current
ends and early ends): every procedure that can be converted to Biologic is converted back to the
same steps in the same order, each of which drives the cell alike, ends at the same conditions,
goes on at the same step and records alike, followed by End. -/
theorem C152_same_partial (body : List MtB.Step) (last : MtB.Step)
    (r : List (MtB.Converted × List MtB.Seq) × List CycleRules.Rules)
    (hc : MtB.convert noLimits (body ++ [last]) = .ok r)
    (hm : ∀ s ∈ body, Measures s ∧ FineStep s ∧ s.stepType ≠ "Charge")
    (he : ∀ (i : Nat) s, body[i]? = some s → ∀ e ∈ s.ends.toList, e.endType ≠ "Current" ∧
      (e.step = (body.length : Int) + 1 → i + 1 = body.length)) :
    ∃ out fin, roundTrip noLimits (body ++ [last]) = .ok (out ++ [fin]) ∧ List.Forall₂ SameStep body out ∧
      Padded fin.stepType "End" := by
  obtain ⟨c, seqs, h1, h2, h3⟩ := convert_plain body last r (fun s hs => (hm s hs).1) hc
  obtain ⟨out, h4, h5⟩ := rows_build _
    (fun k q t => BtM.createStep (numbers body.length) [] (body.length + 1) k q = .ok t) 0 body seqs h3
    (fun k s q hk hA => by
      have hlt : k < body.length := by
        by_contra hcon
        rw [List.getElem?_eq_none (by omega)] at hk
        cases hk
      obtain ⟨_, hf, hch⟩ := hm s (List.mem_of_getElem? hk)
      rw [Nat.zero_add] at hA ⊢
      exact step_back body k s q hlt hA hf hch (he k s hk))
  have hk := rows_kinds _ _ 0 body seqs h3
  have hlen : (seqs.map asSeq).length = body.length := by rw [List.length_map]; exact rows_length _ _ _ _ h3
  refine ⟨out, BtM.plain "  End   ", ?_, h5, ⟨2, 3, rfl⟩⟩
  unfold roundTrip
  rw [hc]
  obtain ⟨conv, rules⟩ := r
  simp only at h1
  subst h1
  simp only [h2]
  rw [if_neg (by decide), createSteps_plain _ _ hk]
  exact ⟨out, rfl, by rw [hlen]; exact h4⟩

/-! ### what does not come back -/

theorem padded_letters (a b : String) (h : Padded a b) :
    a.toList.filter (fun c => c != ' ') = b.toList.filter (fun c => c != ' ') := by
  obtain ⟨n, m, rfl⟩ := h
  have hr : ∀ k, (List.replicate k ' ').filter (fun c => c != ' ') = [] := by
    intro k
    rw [List.filter_eq_nil_iff]
    intro c hc
    rw [List.eq_of_mem_replicate hc]
    decide
  rw [String.toList_ofList, List.filter_append, List.filter_append, hr, hr]
  simp

theorem emitPass_mem (active : List Nat) (st : BtM.NumState) (l : List BtM.BSeq) (i : Nat) (out : List BtM.MStep)
    (h : BtM.emitPass active st i l = .ok out) (t : BtM.MStep) (ht : t ∈ out) :
    t = BtM.plain "  Do 1  " ∨ t = BtM.plain "AdvCycle" ∨ (∃ num q, BtM.loopStep num q = .ok t) ∨
      ∃ num ls n k q, BtM.createStep num ls n k q = .ok t := by
  induction l generalizing i out with
  | nil => cases h; simp at ht
  | cons q qs ih =>
    simp only [BtM.emitPass, bind, Except.bind] at h
    split at h
    · cases h
    rename_i a ha
    split at h
    · cases h
    rename_i b hb
    cases h
    rcases List.mem_append.mp ht with ht | ht
    · unfold BtM.emit at ha
      split at ha
      · cases ha; simp at ht
      have hpre : ∀ (x : BtM.MStep), x ∈ (if i ∈ active then [BtM.plain "  Do 1  "] else []) → x = BtM.plain "  Do 1  " := by
        intro x hx
        split at hx
        · simpa using hx
        · simp at hx
      simp only at ha
      split at ha
      · cases ha
        rcases List.mem_append.mp ht with ht | ht
        · exact Or.inl (hpre t ht)
        · exact Or.inr (Or.inl (by simpa using ht))
      split at ha
      · simp only [bind, Except.bind] at ha
        split at ha
        · cases ha
        rename_i lp hlp
        cases ha
        rcases List.mem_append.mp ht with ht | ht
        · exact Or.inl (hpre t ht)
        · simp only [List.mem_cons, List.not_mem_nil, or_false] at ht
          rcases ht with rfl | rfl
          · exact Or.inr (Or.inl rfl)
          · exact Or.inr (Or.inr (Or.inl ⟨_, _, hlp⟩))
      · simp only [bind, Except.bind] at ha
        split at ha
        · cases ha
        rename_i cs hcs
        cases ha
        rcases List.mem_append.mp ht with ht | ht
        · exact Or.inl (hpre t ht)
        · simp only [List.mem_cons, List.not_mem_nil, or_false] at ht
          subst ht
          exact Or.inr (Or.inr (Or.inr ⟨_, _, _, _, _, hcs⟩))
    · exact ih (i + 1) b hb ht

theorem back_mem (cfg : MtB.Config) (steps : List MtB.Step) (out : List BtM.MStep) (h : roundTrip cfg steps = .ok out)
    (t : BtM.MStep) (ht : t ∈ out) :
    t = BtM.plain "  Do 1  " ∨ t = BtM.plain "AdvCycle" ∨ t = BtM.plain "  End   " ∨ (∃ num q, BtM.loopStep num q = .ok t) ∨
      ∃ num ls n k q, BtM.createStep num ls n k q = .ok t := by
  unfold roundTrip at h
  split at h
  · cases h
  split at h
  · split at h
    · cases h
    unfold BtM.createSteps at h
    simp only [bind, Except.bind] at h
    split at h
    · cases h
    split at h
    · cases h
    split at h
    · cases h
    split at h
    · cases h
    split at h
    · cases h
    rename_i o ho
    cases h
    rcases List.mem_append.mp ht with ht | ht
    · rcases emitPass_mem _ _ _ _ _ ho t ht with h1 | h1 | h1 | h1
      · exact Or.inl h1
      · exact Or.inr (Or.inl h1)
      · exact Or.inr (Or.inr (Or.inr (Or.inl h1)))
      · exact Or.inr (Or.inr (Or.inr (Or.inr h1)))
    · exact Or.inr (Or.inr (Or.inl (by simpa using ht)))
  · cases h

/-- C152 fails for charging: no procedure that comes back has a charge step, whatever it had
before. -/
theorem C152_charge_violated (cfg : MtB.Config) (steps : List MtB.Step) (out : List BtM.MStep)
    (h : roundTrip cfg steps = .ok out) (t : BtM.MStep) (ht : t ∈ out) : ¬ Padded t.stepType "Charge" := by
  intro hp
  have hl := padded_letters _ _ hp
  rcases back_mem cfg steps out h t ht with rfl | rfl | rfl | ⟨num, q, hq⟩ | ⟨num, ls, n, k, q, hq⟩
  · exact absurd hl (by decide)
  · exact absurd hl (by decide)
  · exact absurd hl (by decide)
  · obtain ⟨m, _, _, rfl⟩ := (BiologicToMaccor.C31_loop_number num q t).mp hq
    revert hl
    show ¬ ((" Loop 1 ".toList.filter (fun c => c != ' ')) = _)
    decide
  · obtain ⟨step, c, _, hch, hc, h1, _⟩ := BiologicToMaccor.createStep_spec num ls n k q t hq
    obtain ⟨_, _, _, _, _, c6⟩ := BiologicToMaccor.control_spec q c hc
    have hd : BtM.chargeType q = "Dischrge " := by
      unfold BtM.chargeType
      rcases hch with hch | hch <;> rw [hch] <;> decide
    rw [hd] at c6
    rw [h1] at hl
    rcases c6 with c6 | c6 <;> rw [c6] at hl <;> exact absurd hl (by decide)

/-- C152 fails for loops: no loop of a procedure that comes back has a number of repetitions. -/
theorem C152_loop_violated (cfg : MtB.Config) (steps : List MtB.Step) (out : List BtM.MStep)
    (h : roundTrip cfg steps = .ok out) (t : BtM.MStep) (ht : t ∈ out) (hp : Padded t.stepType "Loop 1") :
    ∀ e ∈ t.ends, ∀ v, ¬ SameValue v e.value := by
  have hl := padded_letters _ _ hp
  rcases back_mem cfg steps out h t ht with rfl | rfl | rfl | ⟨num, q, hq⟩ | ⟨num, ls, n, k, q, hq⟩
  · exact absurd hl (by decide)
  · exact absurd hl (by decide)
  · exact absurd hl (by decide)
  · obtain ⟨m, _, _, rfl⟩ := (BiologicToMaccor.C31_loop_number num q t).mp hq
    intro e he v
    simp only [List.mem_singleton] at he
    subst he
    cases v <;> exact id
  · obtain ⟨step, c, _, hch, hc, h1, _⟩ := BiologicToMaccor.createStep_spec num ls n k q t hq
    obtain ⟨_, _, _, _, _, c6⟩ := BiologicToMaccor.control_spec q c hc
    have hd : BtM.chargeType q = "Dischrge " := by
      unfold BtM.chargeType
      rcases hch with hch | hch <;> rw [hch] <;> decide
    rw [hd] at c6
    rw [h1] at hl
    rcases c6 with c6 | c6 <;> rw [c6] at hl <;> exact absurd hl (by decide)

theorem forall₂_mem {α β : Type} {R : α → β → Prop} {l : List α} {m : List β} (h : List.Forall₂ R l m) (a : α) (ha : a ∈ l) :
    ∃ b ∈ m, R a b := by
  induction h with
  | nil => simp at ha
  | cons h1 _ ih =>
    rcases List.mem_cons.mp ha with rfl | ha
    · exact ⟨_, by simp, h1⟩
    · obtain ⟨b, hb, hr⟩ := ih ha
      exact ⟨b, by simp [hb], hr⟩

/-- what a limit must satisfy when its sequence is converted back -/
theorem limit_ok (body : List MtB.Step) (last : MtB.Step) (out : List BtM.MStep) (hm : ∀ s ∈ body, Measures s)
    (h : roundTrip noLimits (body ++ [last]) = .ok out) (i : Nat) (s : MtB.Step) (hs : body[i]? = some s)
    (e : MtB.EndEntry) (he : e ∈ s.ends.toList) :
    ∃ l f, MtB.convertEnd (MtB.seqNumsByStep (entries 0 body)) ((i : Int) + 1) (i : Int) 0 ((body.length : Int) + 1)
      ((body.length : Int) + 1) e = .ok l ∧
      BtM.convertLim (numbers body.length) [] (body.length + 1) i (i + 1) (asLim l) = .ok f := by
  unfold roundTrip at h
  split at h
  · cases h
  rename_i conv rules hc
  obtain ⟨c, seqs, h1, h2, h3⟩ := convert_plain body last (conv, rules) hm hc
  simp only at h1
  subst h1
  simp only [h2] at h
  rw [if_neg (by decide)] at h
  have hk := rows_kinds _ _ 0 body seqs h3
  have hlen : (seqs.map asSeq).length = body.length := by rw [List.length_map]; exact rows_length _ _ _ _ h3
  obtain ⟨o, rfl, h4⟩ := (createSteps_plain _ _ hk).mp h
  rw [hlen] at h4
  obtain ⟨q, hq, hA⟩ := rows_get _ _ _ _ h3 i s hs
  rw [Nat.zero_add] at hA
  obtain ⟨t, ht, hB⟩ := rows_get _ _ _ _ h4 i (asSeq q) (by simp [hq])
  rw [Nat.zero_add] at hB
  obtain ⟨_, _, _, _, _, _, h5, _⟩ := convertPart_spec _ _ _ _ _ s _ q hA
  obtain ⟨l, hl, hR⟩ := forall₂_mem h5 e he
  obtain ⟨step, _, hst, _, _, _, _, _, h6⟩ := BiologicToMaccor.createStep_spec _ _ _ _ _ t hB
  have hi : i < body.length := by
    by_contra hcon
    rw [List.getElem?_eq_none (by omega)] at hs
    cases hs
  have hstep : step = i + 1 := by
    simp [numbers, hi] at hst
    exact hst.symm
  subst hstep
  obtain ⟨f, _, hf⟩ := forall₂_mem h6 (asLim l) (List.mem_map_of_mem hl)
  exact ⟨l, f, hR, hf⟩

/-- C152 fails for currents: a procedure with a step that ends at a current, as every charge that
tapers does, does not come back. -/
theorem C152_current_violated (body : List MtB.Step) (last : MtB.Step) (out : List BtM.MStep) (hm : ∀ s ∈ body, Measures s)
    (s : MtB.Step) (hs : s ∈ body) (e : MtB.EndEntry) (he : e ∈ s.ends.toList) (hc : e.endType = "Current") :
    roundTrip noLimits (body ++ [last]) ≠ .ok out := by
  intro h
  obtain ⟨i, hi⟩ := List.mem_iff_getElem?.mp hs
  obtain ⟨l, f, h1, h2⟩ := limit_ok body last out hm h i s hi e he
  have hl : l.type = "|I|" := by
    unfold MtB.convertEnd at h1
    split at h1
    · cases h1
    simp only [bind, Except.bind] at h1
    split at h1
    · cases h1
    rw [if_neg (by rw [hc]; decide), if_neg (by rw [hc]; decide)] at h1
    split at h1
    · cases h1
    split at h1
    · cases h1
    cases h1
    rfl
  unfold BtM.convertLim BtM.endValue at h2
  simp only [asLim, hl, bind, Except.bind] at h2
  split at h2
  · cases h2
  rw [if_neg (by decide), if_neg (by decide), if_neg (by decide)] at h2
  cases h2

/-- C152 fails for early ends: a procedure with an end entry that leads to the End step from any
step but the last does not come back. -/
theorem C152_stop_violated (body : List MtB.Step) (last : MtB.Step) (out : List BtM.MStep) (hm : ∀ s ∈ body, Measures s)
    (hn : body.length ≤ 9999) (i : Nat) (s : MtB.Step) (hs : body[i]? = some s) (hi : i + 1 < body.length)
    (e : MtB.EndEntry) (he : e ∈ s.ends.toList) (hstop : e.step = (body.length : Int) + 1) :
    roundTrip noLimits (body ++ [last]) ≠ .ok out := by
  intro h
  obtain ⟨l, f, h1, h2⟩ := limit_ok body last out hm h i s hs e he
  have hne : e.step ≠ (i : Int) + 1 + 1 := by rw [hstop]; omega
  have hl : l.goto = 9999 ∧ l.jumps = true := by
    unfold MtB.convertEnd at h1
    split at h1
    · cases h1
    simp only [bind, Except.bind] at h1
    split at h1
    · cases h1
    rename_i g hg
    unfold MtB.gotoSeq at hg
    rw [if_neg hne, if_pos hstop] at hg
    cases hg
    repeat' split at h1
    all_goals first
      | cases h1; done
      | (cases h1; exact ⟨rfl, by simpa using hne⟩)
  unfold BtM.convertLim at h2
  simp only [bind, Except.bind] at h2
  split at h2
  · cases h2
  split at h2
  · cases h2
  split at h2
  · cases h2
  rename_i tt htt
  unfold BtM.endTarget at htt
  simp only [asLim, hl.1, hl.2, if_true] at htt
  rw [if_neg (by decide), if_neg (by decide)] at htt
  have : numbers body.length (Int.toNat 9999) = none := by
    simp [numbers]
    omega
  rw [this] at htt
  simp at htt

/-! ### concrete procedures -/

/-- the number 0.5 -/
def half : MtB.Val := .num { neg := false, int := 0, frac := [5], exp := 0 }
/-- the number 3.0 -/
def three : MtB.Val := .num { neg := false, int := 3, frac := [], exp := 0 }
/-- ten minutes -/
def ten : MtB.Val := .time ⟨0, 10, 0⟩

/-- a rest of ten minutes, then on to the given step -/
def rest (n : Int) : MtB.Step :=
  { stepType := "Rest", stepMode := "", stepValue := none, limits := none,
    ends := .single { endType := "StepTime", oper := "=", value := ten, step := n },
    reports := .single { reportType := "StepTime", value := ten } }

/-- a discharge with 0.5 A to 3 V, then on to the given step -/
def discharge (n : Int) : MtB.Step :=
  { stepType := "Dischrge", stepMode := "Current", stepValue := some half, limits := none,
    ends := .many [{ endType := "Voltage", oper := "<=", value := three, step := n },
      { endType := "StepTime", oper := "=", value := ten, step := 1 }],
    reports := .many [{ reportType := "Voltage", value := half }, { reportType := "Current", value := half }] }

/-- a step without anything but its type -/
def bare (t : String) : MtB.Step :=
  { stepType := t, stepMode := "", stepValue := none, limits := none, ends := .absent, reports := .absent }

/-- the end of a loop that runs three times -/
def again (t : String) (n : Int) : MtB.Step :=
  { bare t with ends := .single { endType := "Loop Cnt", oper := "=", value := three, step := n } }

/-- types of the steps of a procedure that came back -/
def types (r : Except Err (List BtM.MStep)) : Option (List String) := r.toOption.map (fun l => l.map BtM.MStep.stepType)

/-- C152 fails for cycle advances: outside loops they are lost. -/
theorem C152_advance_violated :
    types (roundTrip noLimits [rest 2, bare "AdvCycle", discharge 4, bare "End"]) = some ["  Rest  ", "Dischrge ", "  End   "] := by
  decide +kernel

/-- C152 fails for nested loops: the procedure is converted to Biologic, but not back. -/
theorem C152_nested_violated :
    (MtB.convert noLimits [bare "Do 1", bare "Do 2", rest 4, again "Loop 2" 2, again "Loop 1" 1, bare "End"]).isOk = true ∧
    roundTrip noLimits [bare "Do 1", bare "Do 2", rest 4, again "Loop 2" 2, again "Loop 1" 1, bare "End"] =
      .error .assertionError := by
  decide +kernel

example : ∃ r, MtB.convert noLimits ([rest 2, discharge 3, rest 4] ++ [bare "End"]) = .ok r ∧
    (∀ s ∈ [rest 2, discharge 3, rest 4], Measures s ∧ FineStep s ∧ s.stepType ≠ "Charge") ∧
    (∀ (i : Nat) s, [rest 2, discharge 3, rest 4][i]? = some s → ∀ e ∈ s.ends.toList, e.endType ≠ "Current" ∧
      (e.step = (([rest 2, discharge 3, rest 4].length : Nat) : Int) + 1 → i + 1 = [rest 2, discharge 3, rest 4].length)) := by
  have hten : Fine 15 ten := ⟨⟨0, 10, by norm_num, by norm_num⟩, 0, by norm_num⟩
  have hrest : ∀ n, FineStep (rest n) := by
    intro n
    refine ⟨by simp [rest], ?_, ?_⟩ <;> intro e he <;> simp [rest, MtB.Entries.toList] at he <;> subst he <;> exact hten
  have hdis : FineStep (discharge 3) := by
    refine ⟨?_, ?_, ?_⟩
    · intro v hv
      simp only [discharge, Option.some.injEq] at hv
      subst hv
      show Units.Dec.sigFigs _ ≤ _
      decide
    · intro e he
      simp only [discharge, MtB.Entries.toList, List.mem_cons, List.not_mem_nil, or_false] at he
      rcases he with rfl | rfl
      · show Units.Dec.sigFigs _ ≤ _
        decide
      · exact hten
    · intro e he
      simp only [discharge, MtB.Entries.toList, List.mem_cons, List.not_mem_nil, or_false] at he
      rcases he with rfl | rfl <;> · show Units.Dec.sigFigs _ ≤ _
                                     decide
  refine ⟨_, rfl, ?_, ?_⟩
  · intro s hs
    simp only [List.mem_cons, List.not_mem_nil, or_false] at hs
    rcases hs with rfl | rfl | rfl
    · exact ⟨⟨by simp [rest], rfl⟩, hrest 2, by simp [rest]⟩
    · exact ⟨⟨by simp [discharge], rfl⟩, hdis, by simp [discharge]⟩
    · exact ⟨⟨by simp [rest], rfl⟩, hrest 4, by simp [rest]⟩
  · intro i s hs
    match i, hs with
    | 0, hs => simp at hs; subst hs; simp [rest, MtB.Entries.toList]
    | 1, hs => simp at hs; subst hs; simp [discharge, MtB.Entries.toList]
    | 2, hs => simp at hs; subst hs; simp [rest, MtB.Entries.toList]

/-- a procedure with a charge, which comes back -/
example : types (roundTrip noLimits [{ discharge 2 with stepType := "Charge" }, rest 3, bare "End"]) =
    some ["Dischrge ", "  Rest  ", "  End   "] := by decide +kernel

/-- a procedure with a loop, which comes back -/
example : types (roundTrip noLimits [bare "Do 1", rest 3, again "Loop 1" 1, bare "End"]) =
    some ["  Do 1  ", "  Rest  ", "AdvCycle", " Loop 1 ", "  End   "] := by decide +kernel

/-- procedures with a current end and with an early end that are converted to Biologic -/
example :
    (MtB.convert noLimits [{ rest 2 with ends := .single { endType := "Current", oper := "<=", value := half, step := 2 } },
      rest 3, bare "End"]).isOk = true ∧
    (MtB.convert noLimits [rest 3, rest 3, bare "End"]).isOk = true := by decide +kernel

end Beep.Props.RoundTrip
