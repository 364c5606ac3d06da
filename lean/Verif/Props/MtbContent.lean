import Verif.Props.MtbSeqs
import Verif.Props.Units
import Verif.Spec.MtbContent
/-
C88: the sequences of a converted technique apply the control of their step, end on its end
entries and record its reports; and which techniques can be converted.
-/
namespace Beep.Props.MtbContent
open Beep Beep.MtB Beep.Units Beep.Spec.Units Beep.Spec.MtB Beep.Props.MtbPartition Beep.Props.MtbSeqs

/-! ### single entries -/

theorem same_volts (d : Dec) : SameQuantity "Voltage" (.num d) (convertVolts d) :=
  ⟨fun d' h _ hs => by cases h; exact (Props.Units.C29_volts d hs).1, fun _ _ h => absurd h (by decide),
    fun _ _ _ h => (nomatch h)⟩

theorem same_amps (d : Dec) : SameQuantity "Current" (.num d) (convertAmps d) :=
  ⟨fun _ _ h => absurd h (by decide), fun d' h _ hs => by cases h; exact Props.Units.C29_amps d hs,
    fun _ _ _ h => (nomatch h)⟩

theorem same_time (t : Time) : SameQuantity "StepTime" (.time t) (convertTime t) :=
  ⟨fun _ h => (nomatch h), fun _ h => (nomatch h),
    fun h m s he _ hs => by cases he; exact Props.Units.C29_time_partial h m s hs⟩

theorem operatorMap_iff (o c : String) :
    operatorMap o = .ok c ↔ (o = ">=" ∧ c = ">") ∨ (o = "<=" ∧ c = "<") := by
  unfold operatorMap
  split
  · rename_i h
    subst h
    constructor
    · intro h; cases h; exact Or.inl ⟨rfl, rfl⟩
    · rintro (⟨_, rfl⟩ | ⟨h, _⟩)
      · rfl
      · exact absurd h (by decide)
  · rename_i h1
    split
    · rename_i h
      subst h
      constructor
      · intro h; cases h; exact Or.inr ⟨rfl, rfl⟩
      · rintro (⟨h, _⟩ | ⟨_, rfl⟩)
        · exact absurd h (by decide)
        · rfl
    · rename_i h2
      constructor
      · intro h; cases h
      · rintro (⟨h, _⟩ | ⟨h, _⟩)
        · exact absurd h h1
        · exact absurd h h2

/-- a converted end entry -/
theorem convertEnd_watches (sq : Int → Option (List Int)) (stepNum seqNum lo hi endStep : Int) (e : EndEntry)
    (l : Lim) (h : convertEnd sq stepNum seqNum lo hi endStep e = .ok l) : Watches e l := by
  unfold convertEnd at h
  split at h
  · cases h
  simp only [bind, Except.bind] at h
  split at h
  · cases h
  split at h
  · rename_i ht
    split at h
    · cases h
    · rename_i ho
      split at h
      · cases h
      · rename_i t hv
        cases h
        unfold Val.getTime at hv
        split at hv
        · rename_i t' hvt
          cases hv
          refine ⟨?_, Or.inl ⟨ht, not_not.mp ho, rfl, rfl⟩⟩
          rw [ht, hvt]; exact same_time _
        · cases hv
  · split at h
    · rename_i ht
      split at h
      · cases h
      · rename_i c hc
        split at h
        · cases h
        · rename_i d hv
          cases h
          unfold Val.dec at hv
          split at hv
          · rename_i d' hvd
            cases hv
            refine ⟨?_, Or.inr ⟨Or.inl ⟨ht, rfl⟩, (operatorMap_iff _ _).mp hc⟩⟩
            rw [ht, hvd]; exact same_volts _
          · cases hv
    · split at h
      · rename_i ht
        split at h
        · cases h
        · rename_i c hc
          split at h
          · cases h
          · rename_i d hv
            cases h
            unfold Val.dec at hv
            split at hv
            · rename_i d' hvd
              cases hv
              refine ⟨?_, Or.inr ⟨Or.inr ⟨ht, rfl⟩, (operatorMap_iff _ _).mp hc⟩⟩
              rw [ht, hvd]; exact same_amps _
            · cases hv
      · cases h

/-- which end entries are converted -/
theorem convertEnd_ok (sq : Int → Option (List Int)) (stepNum seqNum lo hi endStep : Int) (e : EndEntry) :
    (∃ l, convertEnd sq stepNum seqNum lo hi endStep e = .ok l) ↔
    (lo ≤ e.step ∧ (e.step ≤ hi ∨ e.step = endStep)) ∧ (∃ g, gotoSeq sq stepNum seqNum endStep e.step = .ok g) ∧
      EndOk e := by
  unfold convertEnd
  by_cases hb : e.step < lo ∨ (e.step > hi ∧ e.step ≠ endStep)
  · rw [if_pos hb]
    constructor
    · rintro ⟨l, h⟩; cases h
    · rintro ⟨⟨h1, h2⟩, _⟩
      rcases hb with hb | ⟨hb1, hb2⟩
      · omega
      · rcases h2 with h2 | h2
        · omega
        · exact absurd h2 hb2
  · rw [if_neg hb]
    have hb' : lo ≤ e.step ∧ (e.step ≤ hi ∨ e.step = endStep) := by
      push Not at hb
      refine ⟨hb.1, ?_⟩
      by_cases h : e.step ≤ hi
      · exact Or.inl h
      · exact Or.inr (hb.2 (by omega))
    cases hg : gotoSeq sq stepNum seqNum endStep e.step with
    | error er =>
      constructor
      · rintro ⟨l, h⟩; cases h
      · rintro ⟨_, ⟨g, h⟩, _⟩; cases h
    | ok g =>
      have hbind : ∀ f : Int → Except Err Lim, ((Except.ok g : Except Err Int) >>= f) = f g := fun _ => rfl
      simp only [hbind]
      have key : ∀ P Q : Prop, (P ↔ Q) → (P ↔ (lo ≤ e.step ∧ (e.step ≤ hi ∨ e.step = endStep)) ∧
          (∃ g', (Except.ok g : Except Err Int) = .ok g') ∧ Q) := by
        intro P Q h
        exact ⟨fun p => ⟨hb', ⟨g, rfl⟩, h.mp p⟩, fun q => h.mpr q.2.2⟩
      apply key
      unfold EndOk
      by_cases h1 : e.endType = "StepTime"
      · rw [if_pos h1]
        have hnv : ¬ (e.endType = "Voltage" ∨ e.endType = "Current") := by rw [h1]; decide
        by_cases ho : e.oper = "="
        · rw [if_neg (not_not.mpr ho)]
          cases hv : e.value with
          | time t => exact ⟨fun _ => Or.inl ⟨h1, ho, t, rfl⟩, fun _ => ⟨_, rfl⟩⟩
          | num d =>
            constructor
            · rintro ⟨l, h⟩; cases h
            · rintro (⟨_, _, t, h⟩ | ⟨h, _⟩)
              · cases h
              · exact absurd h hnv
          | text s =>
            constructor
            · rintro ⟨l, h⟩; cases h
            · rintro (⟨_, _, t, h⟩ | ⟨h, _⟩)
              · cases h
              · exact absurd h hnv
        · rw [if_pos ho]
          constructor
          · rintro ⟨l, h⟩; cases h
          · rintro (⟨_, h, _⟩ | ⟨h, _⟩)
            · exact absurd h ho
            · exact absurd h hnv
      rw [if_neg h1]
      have hval : ∀ (f : Dec → String → Lim) , ((∃ l, (do let c ← operatorMap e.oper; let d ← e.value.dec; return f d c : Except Err Lim) = .ok l) ↔
          (e.oper = ">=" ∨ e.oper = "<=") ∧ ∃ d, e.value = .num d) := by
        intro f
        cases hc : operatorMap e.oper with
        | error er =>
          constructor
          · rintro ⟨l, h⟩; cases h
          · rintro ⟨h, _⟩
            rcases h with h | h <;> rw [h] at hc <;> cases hc
        | ok c =>
          have hop : e.oper = ">=" ∨ e.oper = "<=" := by
            rcases (operatorMap_iff _ _).mp hc with ⟨h, _⟩ | ⟨h, _⟩
            · exact Or.inl h
            · exact Or.inr h
          cases hv : e.value with
          | num d => exact ⟨fun _ => ⟨hop, d, rfl⟩, fun _ => ⟨_, rfl⟩⟩
          | time t =>
            constructor
            · rintro ⟨l, h⟩; cases h
            · rintro ⟨_, d, h⟩; cases h
          | text s =>
            constructor
            · rintro ⟨l, h⟩; cases h
            · rintro ⟨_, d, h⟩; cases h
      by_cases h2 : e.endType = "Voltage"
      · rw [if_pos h2]
        refine (hval _).trans ?_
        constructor
        · intro h; exact Or.inr ⟨Or.inl h2, h⟩
        · rintro (⟨h, _⟩ | ⟨_, h⟩)
          · exact absurd h h1
          · exact h
      rw [if_neg h2]
      by_cases h3 : e.endType = "Current"
      · rw [if_pos h3]
        refine (hval _).trans ?_
        constructor
        · intro h; exact Or.inr ⟨Or.inr h3, h⟩
        · rintro (⟨h, _⟩ | ⟨_, h⟩)
          · exact absurd h h1
          · exact h
      rw [if_neg h3]
      constructor
      · rintro ⟨l, h⟩; cases h
      · rintro (⟨h, _⟩ | ⟨h | h, _⟩)
        · exact absurd h h1
        · exact absurd h h2
        · exact absurd h h3

theorem convertReport_ok (r : Report) : (∃ c, convertReport r = .ok c) ↔ ReportOk r := by
  unfold convertReport ReportOk
  by_cases h1 : r.reportType = "StepTime"
  · rw [if_pos h1]
    have hnv : ¬ (r.reportType = "Voltage" ∨ r.reportType = "Current") := by rw [h1]; decide
    cases hv : r.value with
    | time t => exact ⟨fun _ => Or.inl ⟨h1, t, rfl⟩, fun _ => ⟨_, rfl⟩⟩
    | num d =>
      constructor
      · rintro ⟨l, h⟩; cases h
      · rintro (⟨_, t, h⟩ | ⟨h, _⟩)
        · cases h
        · exact absurd h hnv
    | text s =>
      constructor
      · rintro ⟨l, h⟩; cases h
      · rintro (⟨_, t, h⟩ | ⟨h, _⟩)
        · cases h
        · exact absurd h hnv
  rw [if_neg h1]
  have hval : ∀ f : Dec → Rec, ((∃ c, (do let d ← r.value.dec; return f d : Except Err Rec) = .ok c) ↔
      ∃ d, r.value = .num d) := by
    intro f
    cases hv : r.value with
    | num d => exact ⟨fun _ => ⟨d, rfl⟩, fun _ => ⟨_, rfl⟩⟩
    | time t =>
      constructor
      · rintro ⟨l, h⟩; cases h
      · rintro ⟨d, h⟩; cases h
    | text s =>
      constructor
      · rintro ⟨l, h⟩; cases h
      · rintro ⟨d, h⟩; cases h
  by_cases h2 : r.reportType = "Voltage"
  · rw [if_pos h2]
    refine (hval _).trans ⟨fun h => Or.inr ⟨Or.inl h2, h⟩, ?_⟩
    rintro (⟨h, _⟩ | ⟨_, h⟩)
    · exact absurd h h1
    · exact h
  rw [if_neg h2]
  by_cases h3 : r.reportType = "Current"
  · rw [if_pos h3]
    refine (hval _).trans ⟨fun h => Or.inr ⟨Or.inr h3, h⟩, ?_⟩
    rintro (⟨h, _⟩ | ⟨_, h⟩)
    · exact absurd h h1
    · exact h
  rw [if_neg h3]
  constructor
  · rintro ⟨l, h⟩; cases h
  · rintro (⟨h, _⟩ | ⟨h | h, _⟩)
    · exact absurd h h1
    · exact absurd h h2
    · exact absurd h h3

theorem convertReport_records (r : Report) (c : Rec) (h : convertReport r = .ok c) : Records r c := by
  unfold convertReport at h
  split at h
  · rename_i ht
    cases hv : r.value with
    | time t =>
      rw [hv] at h; cases h
      exact ⟨by rw [ht, hv]; exact same_time t, Or.inl ⟨ht, rfl⟩⟩
    | num d => rw [hv] at h; cases h
    | text s => rw [hv] at h; cases h
  · split at h
    · rename_i ht
      cases hv : r.value with
      | num d =>
        rw [hv] at h; cases h
        exact ⟨by rw [ht, hv]; exact same_volts d, Or.inr (Or.inl ⟨ht, rfl⟩)⟩
      | time d => rw [hv] at h; cases h
      | text s => rw [hv] at h; cases h
    · split at h
      · rename_i ht
        cases hv : r.value with
        | num d =>
          rw [hv] at h; cases h
          exact ⟨by rw [ht, hv]; exact same_amps d, Or.inr (Or.inr ⟨ht, rfl⟩)⟩
        | time d => rw [hv] at h; cases h
        | text s => rw [hv] at h; cases h
      · cases h

theorem control_ok (s : Step) : (∃ c, MtB.control s = .ok c) ↔ ControlOk s := by
  unfold MtB.control ControlOk
  by_cases h0 : s.stepType = "Rest"
  · rw [if_pos h0]; exact ⟨fun _ => Or.inl h0, fun _ => ⟨_, rfl⟩⟩
  rw [if_neg h0]
  by_cases h1 : s.stepType ≠ "Charge" ∧ s.stepType ≠ "Dischrge"
  · rw [if_pos h1]
    constructor
    · rintro ⟨l, h⟩; cases h
    · rintro (h | ⟨h | h, _⟩)
      · exact absurd h h0
      · exact absurd h h1.1
      · exact absurd h h1.2
  rw [if_neg h1]
  have h1' : s.stepType = "Charge" ∨ s.stepType = "Dischrge" := by tauto
  have hval : ∀ f : Dec → String × Option (Rat × String) × Bool, ((∃ c, (match s.stepValue with
      | none => (Except.error Err.assertionError : Except Err (String × Option (Rat × String) × Bool))
      | some v => (do let d ← v.dec; return f d)) = .ok c) ↔
      ∃ d, s.stepValue = some (.num d)) := by
    intro f
    rcases s.stepValue with _ | (d | t | x)
    · constructor
      · rintro ⟨l, h⟩; cases h
      · rintro ⟨d, h⟩; cases h
    · exact ⟨fun _ => ⟨d, rfl⟩, fun _ => ⟨_, rfl⟩⟩
    · constructor
      · rintro ⟨l, h⟩; cases h
      · rintro ⟨d, h⟩; cases h
    · constructor
      · rintro ⟨l, h⟩; cases h
      · rintro ⟨d, h⟩; cases h
  by_cases h2 : s.stepMode = "Current"
  · rw [if_pos h2]
    refine (hval _).trans ⟨fun h => Or.inr ⟨h1', Or.inl h2, h⟩, ?_⟩
    rintro (h | ⟨_, _, h⟩)
    · exact absurd h h0
    · exact h
  rw [if_neg h2]
  by_cases h3 : s.stepMode = "Voltage"
  · rw [if_pos h3]
    refine (hval _).trans ⟨fun h => Or.inr ⟨h1', Or.inr h3, h⟩, ?_⟩
    rintro (h | ⟨_, _, h⟩)
    · exact absurd h h0
    · exact h
  rw [if_neg h3]
  constructor
  · rintro ⟨l, h⟩; cases h
  · rintro (h | ⟨_, h | h, _⟩)
    · exact absurd h h0
    · exact absurd h h2
    · exact absurd h h3

/-- what a sequence with this control does -/
theorem control_applies (s : Step) (c : String × Option (Rat × String) × Bool) (h : MtB.control s = .ok c) (q : Seq)
    (h1 : q.ctrlType = c.1) (h2 : q.value = c.2.1) (h3 : q.charge = c.2.2) :
    Applies s s.stepMode s.stepValue q := by
  unfold MtB.control at h
  split at h
  · rename_i ht
    cases h
    exact Or.inl ⟨ht, h1, h2⟩
  split at h
  · cases h
  rename_i hcd
  have hcd' : s.stepType = "Charge" ∨ s.stepType = "Dischrge" := by tauto
  split at h
  · rename_i hm
    split at h
    · cases h
    · rename_i v hv
      rcases v with d | t | x
      · cases h
        refine Or.inr ⟨hcd', by rw [h3]; exact decide_eq_true_iff, Or.inl ⟨hm, h1⟩, _, _, hv, h2, ?_⟩
        rw [hm]; exact same_amps d
      · cases h
      · cases h
  split at h
  · rename_i hm
    split at h
    · cases h
    · rename_i v hv
      rcases v with d | t | x
      · cases h
        refine Or.inr ⟨hcd', by rw [h3]; exact decide_eq_true_iff, Or.inr ⟨hm, h1⟩, _, _, hv, h2, ?_⟩
        rw [hm]; exact same_volts d
      · cases h
      · cases h
  · cases h

theorem mapE_okiff {α β : Type} (f : α → Except Err β) (l : List α) :
    (∃ l', mapE f l = .ok l') ↔ ∀ a ∈ l, ∃ b, f a = .ok b := by
  induction l with
  | nil => exact ⟨fun _ a h => (nomatch h), fun _ => ⟨[], rfl⟩⟩
  | cons a as ih =>
    rw [mapE]
    simp only [bind, Except.bind, List.forall_mem_cons]
    cases hf : f a with
    | error e =>
      constructor
      · rintro ⟨l, h⟩; cases h
      · rintro ⟨⟨b, h⟩, _⟩; cases h
    | ok b =>
      simp only
      cases hr : mapE f as with
      | error e =>
        constructor
        · rintro ⟨l, h⟩; cases h
        · rintro ⟨_, h⟩
          obtain ⟨l', h⟩ := ih.mpr h
          rw [hr] at h; cases h
      | ok bs => exact ⟨fun _ => ⟨⟨b, rfl⟩, ih.mp ⟨bs, hr⟩⟩, fun _ => ⟨_, rfl⟩⟩

theorem convertPart_ok (sq : Int → Option (List Int)) (stepNum lo hi endStep : Int) (p : Step) (q : Int) :
    (∃ r, convertPart sq stepNum lo hi endStep p q = .ok r) ↔
    ControlOk p ∧ p.ends.toList.length ≤ 3 ∧ p.reports.toList.length ≤ 3 ∧
    (∀ e ∈ p.ends.toList, ∃ l, convertEnd sq stepNum q lo hi endStep e = .ok l) ∧
    ∀ r ∈ p.reports.toList, ReportOk r := by
  unfold convertPart
  rw [← control_ok, ← mapE_okiff]
  have hrep : (∀ r ∈ p.reports.toList, ReportOk r) ↔ ∃ l, mapE convertReport p.reports.toList = .ok l := by
    rw [mapE_okiff]; simp only [convertReport_ok]
  rw [hrep]
  simp only [bind, Except.bind]
  cases MtB.control p with
  | error e =>
    constructor
    · rintro ⟨l, h⟩; cases h
    · rintro ⟨⟨_, h⟩, _⟩; cases h
  | ok c =>
    simp only
    by_cases h1 : p.ends.toList.length > 3
    · rw [if_pos h1]
      constructor
      · rintro ⟨l, h⟩; cases h
      · rintro ⟨_, h, _⟩; omega
    rw [if_neg h1]
    cases mapE (convertEnd sq stepNum q lo hi endStep) p.ends.toList with
    | error e =>
      constructor
      · rintro ⟨l, h⟩; cases h
      · rintro ⟨_, _, _, ⟨_, h⟩, _⟩; cases h
    | ok lims =>
      simp only
      by_cases h2 : p.reports.toList.length > 3
      · rw [if_pos h2]
        constructor
        · rintro ⟨l, h⟩; cases h
        · rintro ⟨_, _, h, _⟩; omega
      rw [if_neg h2]
      cases mapE convertReport p.reports.toList with
      | error e =>
        constructor
        · rintro ⟨l, h⟩; cases h
        · rintro ⟨_, _, _, _, ⟨_, h⟩⟩; cases h
      | ok recs =>
        exact ⟨fun _ => ⟨⟨_, rfl⟩, by omega, by omega, ⟨_, rfl⟩, ⟨_, rfl⟩⟩, fun _ => ⟨_, rfl⟩⟩

theorem convertPart_content (sq : Int → Option (List Int)) (stepNum lo hi endStep : Int) (p : Step) (q : Int)
    (r : Seq) (h : convertPart sq stepNum lo hi endStep p q = .ok r) :
    Applies p p.stepMode p.stepValue r ∧ List.Forall₂ Watches p.ends.toList r.lims ∧
    List.Forall₂ Records p.reports.toList r.recs := by
  unfold convertPart at h
  simp only [bind, Except.bind] at h
  split at h
  · cases h
  rename_i c hc
  split at h
  · cases h
  split at h
  · cases h
  rename_i lims hl
  split at h
  · cases h
  split at h
  · cases h
  rename_i recs hr
  cases h
  refine ⟨control_applies p c hc _ rfl rfl rfl, ?_, ?_⟩
  · exact (mapE_forall _ _ _ hl).imp (fun e l he => convertEnd_watches _ _ _ _ _ _ _ _ he)
  · exact (mapE_forall _ _ _ hr).imp (fun e l he => convertReport_records _ _ he)

/-! ### targets -/

theorem lookup_ok (steps : List Step) (off : Int) (all : List Numbered)
    (hall : numberSteps (off + 1) 0 steps = .ok all) (n : Int) (j : Nat) (hj : j < steps.length) (hn : n = off + j + 1) :
    ∃ q qs, seqNumsByStep all n = some (q :: qs) := by
  obtain ⟨hl, hx⟩ := number_spec _ _ _ _ hall
  cases h : seqNumsByStep all n with
  | some qs =>
    obtain ⟨_, _, _, h3⟩ := lookup_spec steps off all hall n qs h
    cases qs with
    | nil => cases h3
    | cons q qs => exact ⟨q, qs, rfl⟩
  | none =>
    exfalso
    unfold seqNumsByStep at h
    rw [Option.map_eq_none_iff, List.find?_eq_none] at h
    obtain ⟨x, hxj⟩ : ∃ x, all[j]? = some x := ⟨all[j], List.getElem?_eq_getElem (by omega)⟩
    obtain ⟨_, b, _, _⟩ := hx j x hxj
    have := h x (List.mem_of_getElem? hxj)
    apply this
    rw [beq_iff_eq, b, hn]; ring

theorem goto_ok (steps : List Step) (off endStep : Int) (all : List Numbered)
    (hall : numberSteps (off + 1) 0 steps = .ok all) (stepNum q n : Int) :
    (∃ g, gotoSeq (seqNumsByStep all) stepNum q endStep n = .ok g) ↔
    n = stepNum + 1 ∨ n = endStep ∨ ∃ j : Nat, j < steps.length ∧ n = off + j + 1 := by
  unfold gotoSeq
  by_cases h1 : n = stepNum + 1
  · rw [if_pos h1]; exact ⟨fun _ => Or.inl h1, fun _ => ⟨_, rfl⟩⟩
  rw [if_neg h1]
  by_cases h2 : n = endStep
  · rw [if_pos h2]; exact ⟨fun _ => Or.inr (Or.inl h2), fun _ => ⟨_, rfl⟩⟩
  rw [if_neg h2]
  constructor
  · rintro ⟨g, h⟩
    split at h
    · rename_i q' r hq
      obtain ⟨j, a, b, _⟩ := lookup_spec steps off all hall n _ hq
      exact Or.inr (Or.inr ⟨j, a, b⟩)
    · cases h
    · cases h
  · rintro (h | h | ⟨j, hj, hn⟩)
    · exact absurd h h1
    · exact absurd h h2
    · obtain ⟨q', qs, h⟩ := lookup_ok steps off all hall n j hj hn
      rw [h]; exact ⟨_, rfl⟩

/-! ### splitting -/

/-- the step can be split at its limit, when it has one -/
def Splits (s : Step) : Prop :=
  ∀ lims, s.limits = some lims → (s.stepMode = "Current" ∨ s.stepMode = "Voltage") ∧
    (∃ v, limitOf s lims = some v) ∧ (s.stepType = "Charge" ∨ s.stepType = "Dischrge")

theorem splitStep_ok (s : Step) (num : Int) : (∃ ps, splitStep s num = .ok ps) ↔ Splits s := by
  unfold splitStep Splits
  cases hl : s.limits with
  | none => exact ⟨fun _ lims h => (nomatch h), fun _ => ⟨_, rfl⟩⟩
  | some lims =>
    simp only [Option.some.injEq, forall_eq']
    by_cases hm : s.stepMode = "Current" ∨ s.stepMode = "Voltage"
    · rw [if_pos hm]
      change (∃ ps, (match limitOf s lims with
        | none => Except.error Err.valueError
        | some lim => _) = Except.ok ps) ↔ _
      cases hv : limitOf s lims with
      | none =>
        constructor
        · rintro ⟨_, h⟩; cases h
        · rintro ⟨_, ⟨_, h⟩, _⟩; cases h
      | some v =>
        simp only
        by_cases h1 : s.stepType = "Charge"
        · rw [if_pos h1]
          exact ⟨fun _ => ⟨hm, ⟨v, rfl⟩, Or.inl h1⟩, fun _ => ⟨_, rfl⟩⟩
        rw [if_neg h1]
        by_cases h2 : s.stepType = "Dischrge"
        · rw [if_pos h2]
          exact ⟨fun _ => ⟨hm, ⟨v, rfl⟩, Or.inr h2⟩, fun _ => ⟨_, rfl⟩⟩
        rw [if_neg h2]
        constructor
        · rintro ⟨_, h⟩; cases h
        · rintro ⟨_, _, h⟩; tauto
    · rw [if_neg hm]
      constructor
      · rintro ⟨_, h⟩; cases h
      · rintro ⟨h, _⟩; exact absurd h hm

/-- the parts of a step with a limit -/
theorem splitStep_parts (s : Step) (num : Int) (lims : Limits) (v : Val) (hl : s.limits = some lims)
    (hv : limitOf s lims = some v) (ps : List Step) (h : splitStep s num = .ok ps) :
    (s.stepMode = "Current" ∨ s.stepMode = "Voltage") ∧ (s.stepType = "Charge" ∨ s.stepType = "Dischrge") ∧
    ps = [{ s with ends := .single (⟨other s.stepMode, if s.stepType = "Charge" then ">=" else "<=", v, num + 1⟩ : EndEntry) },
          { s with stepMode := other s.stepMode, stepValue := some v }] := by
  obtain ⟨hm, _, ht⟩ := (splitStep_ok s num).mp ⟨ps, h⟩ lims hl
  refine ⟨hm, ht, ?_⟩
  unfold splitStep at h
  rw [hl] at h
  simp only at h
  rw [if_pos hm] at h
  change (match limitOf s lims with
        | none => Except.error Err.valueError
        | some lim => _) = Except.ok ps at h
  rw [hv] at h
  simp only at h
  by_cases h1 : s.stepType = "Charge"
  · rw [if_pos h1] at h
    rw [if_pos h1]
    rw [hl]; exact (Except.ok.inj h).symm
  · rw [if_neg h1, if_pos (by tauto)] at h
    rw [if_neg h1]
    rw [hl]; exact (Except.ok.inj h).symm

theorem partsOf_meas (s : Step) (num : Int)
    (h1 : ¬ (s.stepType = "Do 1" ∨ s.stepType = "Do 2" ∨ s.stepType = "AdvCycle"))
    (h2 : ¬ (s.stepType = "Loop 1" ∨ s.stepType = "Loop 2")) : partsOf s num = splitStep s num := by
  unfold partsOf
  rw [if_neg, if_neg (fun hh => h2 ((isClose_iff _).mp hh))]
  rw [Bool.or_eq_true, isOpen_iff, beq_iff_eq]; tauto

theorem partsOf_ok (s : Step) (num : Int) : (∃ ps, partsOf s num = .ok ps) ↔
    (s.stepType = "Do 1" ∨ s.stepType = "Do 2" ∨ s.stepType = "AdvCycle") ∨
    (s.stepType = "Loop 1" ∨ s.stepType = "Loop 2") ∨ Splits s := by
  by_cases h1 : s.stepType = "Do 1" ∨ s.stepType = "Do 2" ∨ s.stepType = "AdvCycle"
  · refine ⟨fun _ => Or.inl h1, fun _ => ?_⟩
    unfold partsOf
    rw [if_pos]
    · exact ⟨_, rfl⟩
    · rw [Bool.or_eq_true, isOpen_iff, beq_iff_eq]; tauto
  by_cases h2 : s.stepType = "Loop 1" ∨ s.stepType = "Loop 2"
  · refine ⟨fun _ => Or.inr (Or.inl h2), fun _ => ?_⟩
    unfold partsOf
    rw [if_neg, if_pos ((isClose_iff _).mpr h2)]
    · exact ⟨_, rfl⟩
    · rw [Bool.or_eq_true, isOpen_iff, beq_iff_eq]; tauto
  rw [partsOf_meas s num h1 h2, splitStep_ok]
  exact ⟨fun h => Or.inr (Or.inr h), fun h => (h.resolve_left h1).resolve_left h2⟩

theorem number_ok (ss : List Step) (num q : Int) :
    (∃ xs, numberSteps num q ss = .ok xs) ↔ ∀ s ∈ ss, ∃ ps, partsOf s 0 = .ok ps := by
  induction ss generalizing num q with
  | nil => exact ⟨fun _ s h => (nomatch h), fun _ => ⟨[], rfl⟩⟩
  | cons s ss ih =>
    rw [numberSteps, List.forall_mem_cons]
    have hs : (∃ ps, partsOf s 0 = .ok ps) ↔ ∃ ps, partsOf s num = .ok ps := by rw [partsOf_ok, partsOf_ok]
    rw [hs]
    simp only [bind, Except.bind]
    cases partsOf s num with
    | error e =>
      constructor
      · rintro ⟨_, h⟩; cases h
      · rintro ⟨⟨_, h⟩, _⟩; cases h
    | ok ps =>
      simp only
      rw [← ih (num + 1) (q + ps.length)]
      cases numberSteps (num + 1) (q + ps.length) ss with
      | error e =>
        constructor
        · rintro ⟨_, h⟩; cases h
        · rintro ⟨_, ⟨_, h⟩⟩; cases h
      | ok xs => exact ⟨fun _ => ⟨⟨_, rfl⟩, ⟨_, rfl⟩⟩, fun _ => ⟨_, rfl⟩⟩

/-! ### measurement steps -/

theorem convertParts_one_ok (sq : Int → Option (List Int)) (n lo hi e : Int) (p : Step) (q : Int) :
    (∃ out, convertParts sq n lo hi e [p] [q] = .ok out) ↔ ∃ r, convertPart sq n lo hi e p q = .ok r := by
  constructor
  · rintro ⟨out, h⟩
    obtain ⟨r, _, hr⟩ := convertParts_one sq n lo hi e p q out h
    exact ⟨r, hr⟩
  · rintro ⟨r, h⟩
    simp only [convertParts, h, bind, Except.bind]
    exact ⟨_, rfl⟩

theorem convertParts_two_ok (sq : Int → Option (List Int)) (n lo hi e : Int) (p p' : Step) (q q' : Int) :
    (∃ out, convertParts sq n lo hi e [p, p'] [q, q'] = .ok out) ↔
    (∃ r, convertPart sq n lo hi e p q = .ok r) ∧ ∃ r, convertPart sq n lo hi e p' q' = .ok r := by
  constructor
  · rintro ⟨out, h⟩
    obtain ⟨r, r', _, hr, hr'⟩ := convertParts_two sq n lo hi e p p' q q' out h
    exact ⟨⟨r, hr⟩, ⟨r', hr'⟩⟩
  · rintro ⟨⟨r, h⟩, ⟨r', h'⟩⟩
    simp only [convertParts, h, h', bind, Except.bind]
    exact ⟨_, rfl⟩

theorem meas_ok (steps : List Step) (off endStep lo : Int) (all : List Numbered)
    (hall : numberSteps (off + 1) 0 steps = .ok all) (k : Nat) (hk : k < steps.length)
    (hlo : ∀ n, lo ≤ n ↔ Behind steps off k n) (s : Step) (parts : List Step) (seqs : List Int)
    (hp : splitStep s (off + 1 + k) = .ok parts) (hq : seqs.length = parts.length) :
    (∃ m, convertParts (seqNumsByStep all) (off + 1 + k) lo (off + steps.length + 1) endStep parts seqs = .ok m) ↔
    (ControlOk s ∧ s.ends.toList.length ≤ 3 ∧ s.reports.toList.length ≤ 3 ∧
    (∀ e ∈ s.ends.toList, EndOk e ∧ Allowed steps off endStep k e.step) ∧
    (∀ r ∈ s.reports.toList, ReportOk r) ∧
    ∀ lims, s.limits = some lims → s.stepType ≠ "Rest" ∧ ∃ d, limitOf s lims = some (.num d)) := by
  have hend : ∀ (e : EndEntry) (q : Int),
      (∃ l, convertEnd (seqNumsByStep all) (off + 1 + k) q lo (off + steps.length + 1) endStep e = .ok l) ↔
      EndOk e ∧ Allowed steps off endStep k e.step := by
    intro e q
    rw [convertEnd_ok, goto_ok steps off endStep all hall, hlo]
    unfold Allowed
    have e1 : e.step = off + 1 + (k : Int) + 1 ↔ e.step = off + k + 2 := by constructor <;> intro h <;> omega
    rw [e1]
    constructor
    · rintro ⟨⟨h1, _⟩, h2, h3⟩; exact ⟨h3, h1, h2⟩
    · rintro ⟨h3, h1, h2⟩
      refine ⟨⟨h1, ?_⟩, h2, h3⟩
      rcases h2 with h | h | ⟨j, hj, h⟩
      · left; omega
      · exact Or.inr h
      · left; omega
  cases hl : s.limits with
  | none =>
    have : parts = [s] := by
      unfold splitStep at hp; rw [hl] at hp; exact (Except.ok.inj hp).symm
    subst this
    match seqs, hq with
    | [q], _ =>
      rw [convertParts_one_ok, convertPart_ok]
      simp only [hend]
      simp
  | some lims =>
    obtain ⟨hm, ⟨v, hv⟩, ht⟩ := (splitStep_ok s _).mp ⟨parts, hp⟩ lims hl
    obtain ⟨_, _, rfl⟩ := splitStep_parts s _ lims v hl hv parts hp
    have hrest : s.stepType ≠ "Rest" := by rcases ht with h | h <;> rw [h] <;> decide
    match seqs, hq with
    | [q, q'], _ =>
      rw [convertParts_two_ok, convertPart_ok, convertPart_ok]
      simp only [hend]
      have hother : other s.stepMode = "Voltage" ∨ other s.stepMode = "Current" := by
        unfold other; split <;> simp
      have hallow : Allowed steps off endStep k (off + 1 + k + 1) := by
        refine ⟨⟨by omega, ?_⟩, Or.inl (by ring)⟩
        intro m _ hmk _ _; omega
      have hc1 : ∀ ends, ControlOk { s with ends := ends } ↔ ControlOk s := fun _ => Iff.rfl
      have hc2 : ControlOk { s with stepMode := other s.stepMode, stepValue := some v } ↔ ∃ d, v = .num d := by
        unfold ControlOk
        simp only [Option.some.injEq]
        constructor
        · rintro (h | ⟨_, _, h⟩)
          · exact absurd h hrest
          · exact h
        · intro h; exact Or.inr ⟨ht, hother.symm, h⟩
      have he1 : EndOk ⟨other s.stepMode, if s.stepType = "Charge" then ">=" else "<=", v, off + 1 + k + 1⟩ ↔
          ∃ d, v = .num d := by
        unfold EndOk
        simp only
        constructor
        · rintro (⟨h, _⟩ | ⟨_, _, h⟩)
          · rcases hother with h' | h' <;> rw [h'] at h <;> exact absurd h (by decide)
          · exact h
        · intro h; refine Or.inr ⟨hother, ?_, h⟩
          split <;> simp
      rw [hc1, hc2]
      simp only [Entries.toList, List.mem_singleton, forall_eq, he1, hv, Option.some.injEq, hallow, and_true, forall_eq',
        List.length_singleton]
      constructor
      · rintro ⟨⟨a, _, b, _, c⟩, d, e, _, f, _⟩
        exact ⟨a, e, b, f, c, hrest, d⟩
      · rintro ⟨a, e, b, f, c, _, d⟩
        exact ⟨⟨a, by omega, b, d, c⟩, d, e, b, f, c⟩

/-! ### whole techniques -/

theorem loopCount_ok (s : Step) : (∃ n, loopCount s = .ok n) ↔
    ∃ e d, s.ends = .single e ∧ e.value = .num d ∧ d.frac = [] ∧ d.exp = 0 := by
  unfold loopCount
  cases he : s.ends with
  | absent =>
    constructor
    · rintro ⟨_, h⟩; cases h
    · rintro ⟨_, _, h, _⟩; cases h
  | many l =>
    constructor
    · rintro ⟨_, h⟩; cases h
    · rintro ⟨_, _, h, _⟩; cases h
  | single e =>
    simp only
    cases hv : e.value with
    | num d =>
      simp only
      by_cases h : d.frac = [] ∧ d.exp = 0
      · rw [if_pos h]
        exact ⟨fun _ => ⟨e, d, rfl, hv, h⟩, fun _ => ⟨_, rfl⟩⟩
      · rw [if_neg h]
        constructor
        · rintro ⟨_, h⟩; cases h
        · rintro ⟨e', d', h1, h2, h3⟩
          cases h1; rw [hv] at h2; cases h2; exact absurd h3 h
    | time t =>
      constructor
      · rintro ⟨_, h⟩; cases h
      · rintro ⟨e', d', h1, h2, h3⟩; cases h1; rw [hv] at h2; cases h2
    | text t =>
      constructor
      · rintro ⟨_, h⟩; cases h
      · rintro ⟨e', d', h1, h2, h3⟩; cases h1; rw [hv] at h2; cases h2

theorem behind_mark (steps : List Step) (off : Int) (k : Nat) (s : Step) (hs : steps[k]? = some s) (hm : LoopMark s)
    (n : Int) : off + 1 + k + 1 ≤ n ↔ Behind steps off (k + 1) n := by
  constructor
  · intro h
    refine ⟨by omega, ?_⟩
    intro m _ hmk _ _; omega
  · rintro ⟨_, h⟩
    have := h k s (by omega) hs hm
    omega

theorem behind_other (steps : List Step) (off : Int) (k : Nat) (s : Step) (hs : steps[k]? = some s) (hm : ¬ LoopMark s)
    (n : Int) : Behind steps off k n ↔ Behind steps off (k + 1) n := by
  constructor
  · rintro ⟨h1, h2⟩
    refine ⟨h1, ?_⟩
    intro m s' hmk hs' hm'
    by_cases h : m = k
    · subst h; rw [hs] at hs'; cases hs'; exact absurd hm' hm
    · exact h2 m s' (by omega) hs' hm'
  · rintro ⟨h1, h2⟩
    exact ⟨h1, fun m s' hmk => h2 m s' (by omega)⟩

theorem openAt_prev (steps : List Step) (o k : Nat) (s : Step) (hs : steps[k]? = some s) (hm : ¬ LoopMark s)
    (h : OpenAt steps o (k + 1)) : OpenAt steps o k := by
  obtain ⟨h1, ⟨d, hd, ht⟩, h3⟩ := h
  have hne : o ≠ k := by
    rintro rfl
    rw [hs] at hd; cases hd
    apply hm; unfold LoopMark; tauto
  exact ⟨by omega, ⟨d, hd, ht⟩, fun j s' a b => h3 j s' a (by omega)⟩

theorem build_ok (steps : List Step) (off endStep : Int) (all : List Numbered)
    (hall : numberSteps (off + 1) 0 steps = .ok all) (xs : List Numbered) (k : Nat) (hxs : all.drop k = xs)
    (hk : k ≤ steps.length) (lo : Int) (opened : Option Int)
    (hlo : ∀ n, lo ≤ n ↔ Behind steps off k n)
    (hsome : ∀ o', opened = some o' → ∃ o : Nat, o' = off + o + 1 ∧ OpenAt steps o k)
    (hnone : opened = none → ∀ o, ¬ OpenAt steps o k) :
    (∃ out, buildSeqs all (off + steps.length + 1) endStep lo opened xs = .ok out) ↔
    ∀ (j : Nat) s, k ≤ j → steps[j]? = some s → StepOk steps off endStep j s := by
  obtain ⟨hl, hnum⟩ := number_spec _ _ _ _ hall
  induction xs generalizing k lo opened with
  | nil =>
    have : all.length ≤ k := List.drop_eq_nil_iff.mp hxs
    refine ⟨fun _ j s hj hs => ?_, fun _ => ⟨[], rfl⟩⟩
    have := (List.getElem?_eq_some_iff.mp hs).1
    omega
  | cons x xs ih =>
    have hx : all[k]? = some x := by
      have := congrArg List.head? hxs
      rwa [List.head?_drop] at this
    have hd : all.drop (k + 1) = xs := by
      have := congrArg List.tail hxs
      rwa [List.tail_drop] at this
    obtain ⟨hs, hn, hq, hp⟩ := hnum k x hx
    have hkl := (List.getElem?_eq_some_iff.mp hs).1
    have hsplit : (∀ (j : Nat) s, k ≤ j → steps[j]? = some s → StepOk steps off endStep j s) ↔
        StepOk steps off endStep k x.step ∧ ∀ (j : Nat) s, k + 1 ≤ j → steps[j]? = some s → StepOk steps off endStep j s := by
      constructor
      · intro h; exact ⟨h k _ (le_refl _) hs, fun j s hj => h j s (by omega)⟩
      · rintro ⟨h1, h2⟩ j s hj hs'
        by_cases hjk : j = k
        · subst hjk; rw [hs] at hs'; cases hs'; exact h1
        · exact h2 j s (by omega) hs'
    rw [hsplit]
    unfold buildSeqs
    by_cases h1 : isOpen x.step.stepType = true
    · rw [if_pos h1]
      have ht := (isOpen_iff _).mp h1
      have hm : LoopMark x.step := by unfold LoopMark; tauto
      have := ih (k + 1) hd (by omega) (x.num + 1) (some x.num)
        (fun n => by rw [hn]; exact behind_mark steps off k _ hs hm n)
        (by
          intro o' ho'
          cases ho'
          refine ⟨k, by rw [hn]; ring, by omega, ⟨x.step, hs, ht⟩, ?_⟩
          intro j s h1 h2; omega) (fun h => nomatch h)
      rw [this]
      refine ⟨fun h => ⟨?_, h⟩, fun h => h.2⟩
      unfold StepOk; rw [if_pos (by tauto)]; trivial
    rw [if_neg h1]
    have h1' := fun hh => h1 ((isOpen_iff _).mpr hh)
    by_cases h2 : x.step.stepType = "AdvCycle"
    · rw [if_pos h2]
      have hm : ¬ LoopMark x.step := by unfold LoopMark; rw [h2]; decide
      have := ih (k + 1) hd (by omega) lo opened
        (fun n => (hlo n).trans (behind_other steps off k _ hs hm n))
        (by
          intro o' ho'
          obtain ⟨o, a, b⟩ := hsome o' ho'
          exact ⟨o, a, openAt_succ steps o k x.step b hs hm⟩)
        (fun h o ho => hnone h o (openAt_prev steps o k _ hs hm ho))
      rw [this]
      refine ⟨fun h => ⟨?_, h⟩, fun h => h.2⟩
      unfold StepOk; rw [if_pos (by tauto)]; trivial
    rw [if_neg h2]
    by_cases h3 : isClose x.step.stepType = true
    · rw [if_pos h3]
      have ht := (isClose_iff _).mp h3
      have hm : LoopMark x.step := by unfold LoopMark; tauto
      have hsk : StepOk steps off endStep k x.step ↔ (∃ o, OpenAt steps o k) ∧ ∃ n, loopCount x.step = .ok n := by
        unfold StepOk
        rw [if_neg (by tauto), if_pos ht, loopCount_ok]
      rw [hsk]
      cases ho : opened with
      | none =>
        simp only
        constructor
        · rintro ⟨_, h⟩; cases h
        · rintro ⟨⟨⟨o, h⟩, _⟩, _⟩
          exact absurd h (hnone ho o)
      | some o' =>
        obtain ⟨o, hoo, hoa⟩ := hsome o' ho
        have hol : o < steps.length := by have := hoa.1; omega
        obtain ⟨t, r, hlook⟩ := lookup_ok steps off all hall o' o hol hoo
        have hc : seqCount x.step = 1 := by
          unfold seqCount; rw [if_neg (by tauto), if_pos ht]
        have hq' : x.seqs = [(0 + (firstSeq steps k : Int))] := by
          rw [hq, hc]; simp [seqNumsOf]
        have := ih (k + 1) hd (by omega) (x.num + 1) none
          (fun n => by rw [hn]; exact behind_mark steps off k _ hs hm n) (fun _ h => nomatch h)
          (by
            rintro _ o2 ⟨a, ⟨d, hd2, hd3⟩, c⟩
            by_cases ho2 : o2 = k
            · subst ho2; rw [hs] at hd2; cases hd2; exact h1' hd3
            · exact c k x.step (by omega) (by omega) hs hm)
        rw [← this, hq']
        simp only [hlook, bind, Except.bind]
        cases hlc : loopCount x.step with
        | error e =>
          constructor
          · rintro ⟨_, h⟩; cases h
          · rintro ⟨⟨_, ⟨_, h⟩⟩, _⟩; cases h
        | ok n =>
          simp only
          cases buildSeqs all (off + steps.length + 1) endStep (x.num + 1) none xs with
          | error e =>
            constructor
            · rintro ⟨_, h⟩; cases h
            · rintro ⟨_, ⟨_, h⟩⟩; cases h
          | ok rest => exact ⟨fun _ => ⟨⟨⟨o, hoa⟩, ⟨n, rfl⟩⟩, ⟨_, rfl⟩⟩, fun _ => ⟨_, rfl⟩⟩
    rw [if_neg h3]
    have h3' := fun hh => h3 ((isClose_iff _).mpr hh)
    have hm : ¬ LoopMark x.step := by unfold LoopMark; tauto
    have hpar : splitStep x.step (off + 1 + k) = .ok x.parts := by
      rw [← partsOf_meas _ _ (by tauto) h3', ← hn]; exact hp
    have hlen : x.seqs.length = x.parts.length := by
      have h5 := partsOf_length _ _ _ hp
      have h6 : seqCount x.step ≠ 0 := by
        unfold seqCount; rw [if_neg (by tauto), if_neg h3']; split <;> decide
      rw [hq, h5]; unfold seqNumsOf; rw [if_neg h6]; simp
    have hmeas := meas_ok steps off endStep lo all hall k hkl hlo x.step x.parts x.seqs hpar hlen
    have hsk : StepOk steps off endStep k x.step ↔ ∃ m, convertParts (seqNumsByStep all) x.num lo (off + steps.length + 1) endStep
        x.parts x.seqs = .ok m := by
      rw [hn, hmeas]
      unfold StepOk
      rw [if_neg (by tauto), if_neg h3']
    have := ih (k + 1) hd (by omega) lo opened
      (fun n => (hlo n).trans (behind_other steps off k _ hs hm n))
      (by
        intro o' ho'
        obtain ⟨o, a, b⟩ := hsome o' ho'
        exact ⟨o, a, openAt_succ steps o k x.step b hs hm⟩)
      (fun h o ho => hnone h o (openAt_prev steps o k _ hs hm ho))
    rw [hsk, ← this]
    simp only [bind, Except.bind]
    cases convertParts (seqNumsByStep all) x.num lo (off + steps.length + 1) endStep x.parts x.seqs with
    | error e =>
      constructor
      · rintro ⟨_, h⟩; cases h
      · rintro ⟨⟨_, h⟩, _⟩; cases h
    | ok m =>
      simp only
      cases buildSeqs all (off + steps.length + 1) endStep lo opened xs with
      | error e =>
        constructor
        · rintro ⟨_, h⟩; cases h
        · rintro ⟨_, ⟨_, h⟩⟩; cases h
      | ok rest => exact ⟨fun _ => ⟨⟨_, rfl⟩, ⟨_, rfl⟩⟩, fun _ => ⟨_, rfl⟩⟩

/-- C88 (partial: the rules for jumps written in the code also allow the first step of the next
technique, see `C88_next_technique_violated`): a technique is converted exactly when each of its
steps can be. -/
theorem C88_accepts_partial (steps : List Step) (off endStep : Int) :
    (∃ r, convertSteps steps off endStep = .ok r) ↔
    ∀ (k : Nat) s, steps[k]? = some s → StepOk steps off endStep k s := by
  unfold convertSteps
  simp only [bind, Except.bind]
  cases hall : numberSteps (off + 1) 0 steps with
  | error e =>
    constructor
    · rintro ⟨_, h⟩; cases h
    · intro h
      exfalso
      have := (number_ok steps (off + 1) 0).mpr (by
        intro s hs
        obtain ⟨k, hk⟩ := List.mem_iff_getElem?.mp hs
        have hok := h k s hk
        rw [partsOf_ok]
        unfold StepOk at hok
        by_cases h1 : s.stepType = "Do 1" ∨ s.stepType = "Do 2" ∨ s.stepType = "AdvCycle"
        · exact Or.inl h1
        by_cases h2 : s.stepType = "Loop 1" ∨ s.stepType = "Loop 2"
        · exact Or.inr (Or.inl h2)
        rw [if_neg h1, if_neg h2] at hok
        refine Or.inr (Or.inr ?_)
        intro lims hl
        obtain ⟨hc, _, _, _, _, h6⟩ := hok
        obtain ⟨hr, d, hd⟩ := h6 lims hl
        rcases hc with hc | ⟨a, b, _⟩
        · exact absurd hc hr
        · exact ⟨b, ⟨_, hd⟩, a⟩)
      rw [hall] at this
      obtain ⟨_, h⟩ := this
      cases h
  | ok all =>
    simp only
    have := build_ok steps off endStep all hall all 0 rfl (by omega) off none
      (by
        intro n
        constructor
        · intro h; exact ⟨h, fun m _ hm => absurd hm (by omega)⟩
        · intro h; exact h.1)
      (fun _ h => nomatch h) (fun _ o h => absurd h.1 (by omega))
    have h0 : (∀ (k : Nat) s, steps[k]? = some s → StepOk steps off endStep k s) ↔
        ∀ (j : Nat) s, 0 ≤ j → steps[j]? = some s → StepOk steps off endStep j s :=
      ⟨fun h j s _ => h j s, fun h j s => h j s (Nat.zero_le _)⟩
    rw [h0, ← this]
    cases buildSeqs all (off + steps.length + 1) endStep off none all with
    | error e =>
      constructor
      · rintro ⟨_, h⟩; cases h
      · rintro ⟨_, h⟩; cases h
    | ok rest => exact ⟨fun _ => ⟨_, rfl⟩, fun _ => ⟨_, rfl⟩⟩

/-- C88 fails for jumps to the first step of the next technique: the range check lets them pass,
but unless the step is the last of its technique the conversion fails. -/
theorem C88_next_technique_violated (steps : List Step) (off endStep : Int) (k : Nat) (s : Step) (hs : steps[k]? = some s)
    (hlast : k + 1 < steps.length) (hm : s.stepType ∉ ["Do 1", "Do 2", "AdvCycle", "Loop 1", "Loop 2"])
    (e : EndEntry) (he : e ∈ s.ends.toList) (hto : e.step = off + steps.length + 1) (hend : e.step ≠ endStep) :
    ∃ err, convertSteps steps off endStep = .error err := by
  cases h : convertSteps steps off endStep with
  | error err => exact ⟨err, rfl⟩
  | ok r =>
    exfalso
    have := (C88_accepts_partial steps off endStep).mp ⟨r, h⟩ k s hs
    unfold StepOk at this
    rw [if_neg (by intro h; apply hm; rcases h with h | h | h <;> rw [h] <;> decide),
      if_neg (by intro h; apply hm; rcases h with h | h <;> rw [h] <;> decide)] at this
    obtain ⟨_, _, _, h4, _⟩ := this
    rcases (h4 e he).2.2 with h | h | ⟨j, hj, h⟩
    · omega
    · exact hend h
    · omega

/-! ### what the sequences do -/

theorem convertParts_length (sq : Int → Option (List Int)) (n lo hi e : Int) (ps : List Step) (qs : List Int)
    (out : List Seq) (h : convertParts sq n lo hi e ps qs = .ok out) : out.length = ps.length := by
  induction ps generalizing qs out with
  | nil =>
    cases qs with
    | nil => cases h; rfl
    | cons q qs => cases h
  | cons p ps ih =>
    cases qs with
    | nil => cases h
    | cons q qs =>
      rw [convertParts] at h
      simp only [bind, Except.bind] at h
      split at h
      · cases h
      split at h
      · cases h
      rename_i rest hrest
      cases h
      simp [ih _ _ hrest]

/-- the sequences of a measurement step inside the sequences of the technique -/
theorem build_block (all : List Numbered) (hi endStep : Int) (ys : List Numbered) (x : Numbered) (zs : List Numbered)
    (hlen : ∀ y ∈ ys, y.parts.length = seqCount y.step)
    (h1 : ¬ (x.step.stepType = "Do 1" ∨ x.step.stepType = "Do 2" ∨ x.step.stepType = "AdvCycle"))
    (h2 : ¬ (x.step.stepType = "Loop 1" ∨ x.step.stepType = "Loop 2"))
    (lo : Int) (opened : Option Int) (out : List Seq)
    (h : buildSeqs all hi endStep lo opened (ys ++ x :: zs) = .ok out) :
    ∃ lo' pre m post, out = pre ++ (m ++ post) ∧ pre.length = (ys.map (fun y => seqCount y.step)).sum ∧
      convertParts (seqNumsByStep all) x.num lo' hi endStep x.parts x.seqs = .ok m := by
  induction ys generalizing lo opened out with
  | nil =>
    rw [List.nil_append] at h
    unfold buildSeqs at h
    rw [if_neg (fun hh => h1 (by rcases (isOpen_iff _).mp hh with h | h <;> simp [h])),
      if_neg (fun hh => h1 (Or.inr (Or.inr hh))), if_neg (fun hh => h2 ((isClose_iff _).mp hh))] at h
    simp only [bind, Except.bind] at h
    split at h
    · cases h
    rename_i m hm
    split at h
    · cases h
    rename_i rest hrest
    cases h
    exact ⟨lo, [], m, rest, rfl, rfl, hm⟩
  | cons y ys ih =>
    have ih := ih (fun y hy => hlen y (List.mem_cons_of_mem _ hy))
    rw [List.cons_append] at h
    unfold buildSeqs at h
    by_cases ho : isOpen y.step.stepType = true
    · rw [if_pos ho] at h
      obtain ⟨lo', pre, m, post, a, b, c⟩ := ih _ _ _ h
      refine ⟨lo', pre, m, post, a, ?_, c⟩
      have : seqCount y.step = 0 := by
        unfold seqCount; rw [if_pos (by have := (isOpen_iff _).mp ho; tauto)]
      simp [b, this]
    rw [if_neg ho] at h
    by_cases ha : y.step.stepType = "AdvCycle"
    · rw [if_pos ha] at h
      obtain ⟨lo', pre, m, post, a, b, c⟩ := ih _ _ _ h
      refine ⟨lo', pre, m, post, a, ?_, c⟩
      have : seqCount y.step = 0 := by
        unfold seqCount; rw [if_pos (by tauto)]
      simp [b, this]
    rw [if_neg ha] at h
    have ho' := fun hh => ho ((isOpen_iff _).mpr hh)
    by_cases hc : isClose y.step.stepType = true
    · rw [if_pos hc] at h
      split at h
      · cases h
      split at h
      · simp only [bind, Except.bind] at h
        split at h
        · cases h
        split at h
        · cases h
        rename_i rest hrest
        cases h
        obtain ⟨lo', pre, m, post, a, b, c⟩ := ih _ _ _ hrest
        subst a
        refine ⟨lo', _ :: pre, m, post, rfl, ?_, c⟩
        have : seqCount y.step = 1 := by
          unfold seqCount; rw [if_neg (by tauto), if_pos ((isClose_iff _).mp hc)]
        simp [b, this]; omega
      · cases h
    rw [if_neg hc] at h
    simp only [bind, Except.bind] at h
    split at h
    · cases h
    rename_i blk hblk
    split at h
    · cases h
    rename_i rest hrest
    cases h
    obtain ⟨lo', pre, m, post, a, b, c⟩ := ih _ _ _ hrest
    subst a
    refine ⟨lo', blk ++ pre, m, post, by simp, ?_, c⟩
    have := convertParts_length _ _ _ _ _ _ _ _ hblk
    have := hlen y (List.mem_cons_self ..)
    simp [b]; omega

/-- C88: every measurement step of a converted technique is found among its sequences, with its
control, end entries and reports. -/
theorem C88_content (steps : List Step) (off endStep : Int) (all : List Numbered) (seqs : List Seq)
    (h : convertSteps steps off endStep = .ok (all, seqs)) (k : Nat) (s : Step) (hs : steps[k]? = some s)
    (hm : s.stepType ∉ ["Do 1", "Do 2", "AdvCycle", "Loop 1", "Loop 2"]) : Performs steps seqs k s := by
  have h1 : ¬ (s.stepType = "Do 1" ∨ s.stepType = "Do 2" ∨ s.stepType = "AdvCycle") := by
    intro h; apply hm; rcases h with h | h | h <;> rw [h] <;> decide
  have h2 : ¬ (s.stepType = "Loop 1" ∨ s.stepType = "Loop 2") := by
    intro h; apply hm; rcases h with h | h <;> rw [h] <;> decide
  unfold convertSteps at h
  simp only [bind, Except.bind] at h
  split at h
  · cases h
  rename_i all' hall
  split at h
  · cases h
  rename_i seqs' hseqs
  cases h
  obtain ⟨hl, hnum⟩ := number_spec _ _ _ _ hall
  have hkl := (List.getElem?_eq_some_iff.mp hs).1
  obtain ⟨x, hx⟩ : ∃ x, all[k]? = some x := ⟨all[k], List.getElem?_eq_getElem (by omega)⟩
  obtain ⟨hxs, hn, hq, hp⟩ := hnum k x hx
  rw [hs] at hxs
  have hxs := Option.some.inj hxs
  have hdec : all = all.take k ++ x :: all.drop (k + 1) := by
    conv_lhs => rw [← List.take_append_drop k all]
    congr 1
    rw [List.drop_eq_getElem_cons (by omega)]
    rw [List.getElem?_eq_getElem (by omega)] at hx
    rw [Option.some.inj hx]
  have hmap : all.map Numbered.step = steps := by
    apply List.ext_getElem?
    intro i
    rw [List.getElem?_map]
    by_cases hi : i < all.length
    · rw [List.getElem?_eq_getElem hi]
      exact (hnum i _ (List.getElem?_eq_getElem hi)).1.symm
    · rw [List.getElem?_eq_none (by omega), List.getElem?_eq_none (by omega)]; rfl
  rw [hdec] at hseqs
  obtain ⟨lo', pre, m, post, a, b, c⟩ := build_block _ _ _ (all.take k) x (all.drop (k + 1))
    (by
      intro y hy
      obtain ⟨i, hi⟩ := List.mem_iff_getElem?.mp (List.mem_of_mem_take hy)
      exact partsOf_length _ _ _ (hnum i y hi).2.2.2)
    (by rw [← hxs]; exact h1) (by rw [← hxs]; exact h2) _ _ _ hseqs
  have hpre : pre.length = firstSeq steps k := by
    rw [b, ← hmap]
    unfold firstSeq
    rw [← List.map_take, List.map_map]
    rfl
  rw [← hxs, partsOf_meas s _ h1 h2] at hp
  subst a
  unfold Performs
  cases hlim : s.limits with
  | none =>
    simp only
    have hpar : x.parts = [s] := by
      unfold splitStep at hp; rw [hlim] at hp; exact (Except.ok.inj hp).symm
    have hc : seqCount s = 1 := by
      unfold seqCount; rw [if_neg h1, if_neg h2, if_pos hlim]
    have hq' : x.seqs = [(0 + (firstSeq steps k : Int))] := by
      rw [hq, ← hxs, hc]; simp [seqNumsOf]
    rw [hpar, hq'] at c
    obtain ⟨r, rfl, hr⟩ := convertParts_one _ _ _ _ _ _ _ _ c
    have := getElem?_pre pre ([r] ++ post) _ 0 hpre
    rw [Nat.add_zero] at this
    exact ⟨r, this, convertPart_content _ _ _ _ _ _ _ _ hr⟩
  | some lims =>
    simp only
    obtain ⟨_, ⟨v, hv⟩, _⟩ := (splitStep_ok s _).mp ⟨_, hp⟩ lims hlim
    obtain ⟨hmode, ht, hpar⟩ := splitStep_parts s _ lims v hlim hv _ hp
    have hc : seqCount s = 2 := by
      unfold seqCount; rw [if_neg h1, if_neg h2, if_neg (by rw [hlim]; simp)]
    have hq' : ∃ q q', x.seqs = [q, q'] := by
      rw [hq, ← hxs, hc]; exact ⟨_, _, rfl⟩
    obtain ⟨q, q', hq'⟩ := hq'
    rw [hpar, hq'] at c
    obtain ⟨r, r', rfl, hr, hr'⟩ := convertParts_two _ _ _ _ _ _ _ _ _ _ c
    obtain ⟨a1, a2, a3⟩ := convertPart_content _ _ _ _ _ _ _ _ hr
    obtain ⟨b1, b2, b3⟩ := convertPart_content _ _ _ _ _ _ _ _ hr'
    change List.Forall₂ Watches [_] r.lims at a2
    cases hrl : r.lims with
    | nil => rw [hrl] at a2; cases a2
    | cons l ls =>
      rw [hrl, List.forall₂_cons] at a2
      obtain ⟨w, hnil⟩ := a2
      cases hnil
      obtain ⟨w1, w2⟩ := w
      have e0 := getElem?_pre pre ([r, r'] ++ post) _ 0 hpre
      have e1 := getElem?_pre pre ([r, r'] ++ post) _ 1 hpre
      rw [Nat.add_zero] at e0
      refine ⟨r, r', v, l, hv, e0, e1, a1, b1, hrl, ?_, ?_, w1, b2, a3, b3⟩
      · simp only at w2
        unfold other at w2
        rcases hmode with hmo | hmo
        · rw [if_pos hmo] at w2 ⊢
          rcases w2 with ⟨h, _⟩ | ⟨⟨_, h⟩ | ⟨h, _⟩, _⟩
          · exact absurd h (by decide)
          · exact h
          · exact absurd h (by decide)
        · have hne : ¬ s.stepMode = "Current" := by rw [hmo]; decide
          rw [if_neg hne] at w2 ⊢
          rcases w2 with ⟨h, _⟩ | ⟨⟨h, _⟩ | ⟨_, h⟩, _⟩
          · exact absurd h (by decide)
          · exact absurd h (by decide)
          · exact h
      · simp only at w2
        by_cases htc : s.stepType = "Charge"
        · rw [if_pos htc] at w2 ⊢
          rcases w2 with ⟨_, h, _⟩ | ⟨_, ⟨_, h⟩ | ⟨h, _⟩⟩
          · exact absurd h (by decide)
          · exact h
          · exact absurd h (by decide)
        · rw [if_neg htc] at w2 ⊢
          rcases w2 with ⟨_, h, _⟩ | ⟨_, ⟨h, _⟩ | ⟨_, h⟩⟩
          · exact absurd h (by decide)
          · exact absurd h (by decide)
          · exact h

/-! ### the hypotheses are met -/

/-- a technique with a loop, a split step, a jump back and a jump to the end is accepted -/
example : ∃ r, convertSteps [mk "Do 1",
    { mk "Charge" with limits := some { voltage := some (.num ⟨false, 4, [], 0⟩), current := none }, ends := .many [endTo 8, endTo 13] },
    mk "AdvCycle", { mk "Dischrge" with ends := .many [endTo 7, endTo 10] }, mk "Loop 1",
    { mk "Charge" with ends := .single (endTo 12) }] 5 13 = .ok r :=
  ⟨_, rfl⟩

/-- a jump from the first of two steps to the next technique -/
example : convertSteps [{ mk "Charge" with ends := .single (endTo 8) }, { mk "Charge" with ends := .single (endTo 8) }] 5 13
    matches .error .keyError := by decide +kernel

end Beep.Props.MtbContent
