import Verif.Proof.Base
import Verif.Props.MtbPartition
import Verif.Spec.BiologicToMaccor
/-
C30, C31: conversion of a Modulo Bat technique to a Maccor procedure.
-/
namespace Beep.Props.BiologicToMaccor
open Beep Beep.Units Beep.BtM Beep.Spec.BtM
open Beep.MtB (mapE)
open Beep.Props.MtbPartition (mapE_forall)

/-! ### C30 -/

theorem control_spec (q : BSeq) (c : String × String × Option Rat) (h : BtM.control q = .ok c) :
    (q.ctrlType = "Rest" → c = ("  Rest  ", "        ", none)) ∧
    (q.ctrlType = "CC" → c.1 = chargeType q ∧ c.2.1 = "Current " ∧ ∃ v, backAmps q.value q.unit = .ok v ∧ c.2.2 = some v) ∧
    (q.ctrlType = "CV" → c.1 = chargeType q ∧ c.2.1 = "Voltage " ∧ ∃ v, backVolts q.value q.unit = .ok v ∧ c.2.2 = some v) ∧
    (q.ctrlType = "CR" → c.1 = chargeType q ∧ c.2.1 = "Resistance " ∧ ∃ v, backOhms q.value q.unit = .ok v ∧ c.2.2 = some v) ∧
    (q.ctrlType = "CP" → c.1 = chargeType q ∧ c.2.1 = "Power " ∧ ∃ v, backWatts q.value q.unit = .ok v ∧ c.2.2 = some v) ∧
    (c.1 = chargeType q ∨ c.1 = "  Rest  ") := by
  unfold BtM.control at h
  simp only [bind, Except.bind] at h
  split at h
  · rename_i ht
    split at h
    · cases h
    · rename_i v hv
      cases h
      rw [ht]
      refine ⟨fun h => absurd h (by decide), fun _ => ⟨rfl, rfl, v, hv, rfl⟩, fun h => absurd h (by decide),
        fun h => absurd h (by decide), fun h => absurd h (by decide), Or.inl rfl⟩
  split at h
  · rename_i ht
    split at h
    · cases h
    · rename_i v hv
      cases h
      rw [ht.1]
      refine ⟨fun h => absurd h (by decide), fun h => absurd h (by decide), fun _ => ⟨rfl, rfl, v, hv, rfl⟩,
        fun h => absurd h (by decide), fun h => absurd h (by decide), Or.inl rfl⟩
  split at h
  · cases h
  split at h
  · rename_i ht
    split at h
    · cases h
    · rename_i v hv
      cases h
      rw [ht]
      refine ⟨fun h => absurd h (by decide), fun h => absurd h (by decide), fun h => absurd h (by decide),
        fun _ => ⟨rfl, rfl, v, hv, rfl⟩, fun h => absurd h (by decide), Or.inl rfl⟩
  split at h
  · rename_i ht
    split at h
    · cases h
    · rename_i v hv
      cases h
      rw [ht]
      refine ⟨fun h => absurd h (by decide), fun h => absurd h (by decide), fun h => absurd h (by decide),
        fun h => absurd h (by decide), fun _ => ⟨rfl, rfl, v, hv, rfl⟩, Or.inl rfl⟩
  split at h
  · rename_i ht
    cases h
    rw [ht]
    refine ⟨fun _ => rfl, fun h => absurd h (by decide), fun h => absurd h (by decide),
        fun h => absurd h (by decide), fun h => absurd h (by decide), Or.inr rfl⟩
  · cases h

theorem createStep_spec (num : Nat → Option Nat) (ls : List Nat) (n i : Nat) (q : BSeq) (s : MStep)
    (h : createStep num ls n i q = .ok s) :
    ∃ step c, num i = some step ∧ (q.charge = "Charge" ∨ q.charge = "Discharge") ∧ BtM.control q = .ok c ∧
      s.stepType = c.1 ∧ s.stepMode = c.2.1 ∧ s.value = c.2.2 ∧
      List.Forall₂ (fun l e => convertLim num ls n i step l = .ok e) q.lims s.ends := by
  unfold createStep at h
  split at h
  · cases h
  rename_i step hstep
  split at h
  · cases h
  rename_i hch
  simp only [bind, Except.bind] at h
  split at h
  · cases h
  rename_i c hc
  split at h
  · cases h
  split at h
  · cases h
  rename_i ends he
  split at h
  · cases h
  split at h
  · cases h
  cases h
  exact ⟨step, c, hstep, by tauto, hc, rfl, rfl, rfl, mapE_forall _ _ _ he⟩

/-- C30: a rest or discharge sequence keeps its kind, and the control mode and value are those of
the sequence.  Missing: charge sequences. -/
theorem C30_kind_partial (num : Nat → Option Nat) (ls : List Nat) (n i : Nat) (q : BSeq) (s : MStep)
    (h : createStep num ls n i q = .ok s) :
    (q.ctrlType = "Rest" → s.stepType = "  Rest  ") ∧
    (q.ctrlType ≠ "Rest" → q.charge = "Discharge" → s.stepType = "Dischrge ") ∧
    (q.ctrlType = "CC" → s.stepMode = "Current " ∧ ∃ v, backAmps q.value q.unit = .ok v ∧ s.value = some v) ∧
    (q.ctrlType = "CV" → s.stepMode = "Voltage " ∧ ∃ v, backVolts q.value q.unit = .ok v ∧ s.value = some v) ∧
    (q.ctrlType = "CR" → s.stepMode = "Resistance " ∧ ∃ v, backOhms q.value q.unit = .ok v ∧ s.value = some v) ∧
    (q.ctrlType = "CP" → s.stepMode = "Power " ∧ ∃ v, backWatts q.value q.unit = .ok v ∧ s.value = some v) := by
  obtain ⟨step, c, _, _, hc, h1, h2, h3, _⟩ := createStep_spec num ls n i q s h
  obtain ⟨c1, c2, c3, c4, c5, c6⟩ := control_spec q c hc
  rw [h1, h2, h3]
  refine ⟨fun ht => by rw [c1 ht], ?_, fun ht => (c2 ht).2, fun ht => (c3 ht).2, fun ht => (c4 ht).2, fun ht => (c5 ht).2⟩
  intro hr hd
  have hct : q.ctrlType = "CC" ∨ q.ctrlType = "CV" ∨ q.ctrlType = "CR" ∨ q.ctrlType = "CP" := by
    by_contra hcon
    push Not at hcon
    obtain ⟨g1, g2, g3, g4⟩ := hcon
    unfold BtM.control at hc
    rw [if_neg g1, if_neg (fun h => g2 h.1), if_neg g2, if_neg g3, if_neg g4, if_neg hr] at hc
    cases hc
  have : c.1 = chargeType q := by
    rcases hct with ht | ht | ht | ht
    · exact (c2 ht).1
    · exact (c3 ht).1
    · exact (c4 ht).1
    · exact (c5 ht).1
  rw [this]
  unfold chargeType
  rw [hd, if_neg (by decide)]

/-- C30 fails: no sequence ever becomes a charge step; every charging sequence that is converted
becomes a discharge step. -/
theorem C30_charge_violated (num : Nat → Option Nat) (ls : List Nat) (n i : Nat) (q : BSeq) (s : MStep)
    (h : createStep num ls n i q = .ok s) :
    s.stepType ≠ "Charge " ∧ (q.charge = "Charge" → q.ctrlType ≠ "Rest" → s.stepType = "Dischrge ") := by
  obtain ⟨step, c, _, hch, hc, h1, h2, h3, _⟩ := createStep_spec num ls n i q s h
  obtain ⟨c1, c2, c3, c4, c5, c6⟩ := control_spec q c hc
  have hd : chargeType q = "Dischrge " := by
    unfold chargeType
    rcases hch with hch | hch <;> rw [hch] <;> decide
  rw [hd] at c2 c3 c4 c5 c6
  constructor
  · rw [h1]
    rcases c6 with c6 | c6 <;> rw [c6] <;> decide
  · intro _ hr
    rw [h1]
    rcases c6 with c6 | c6
    · exact c6
    · exfalso
      by_cases g1 : q.ctrlType = "CC"
      · exact absurd ((c2 g1).1.symm.trans c6) (by decide)
      by_cases g2 : q.ctrlType = "CV"
      · exact absurd ((c3 g2).1.symm.trans c6) (by decide)
      by_cases g3 : q.ctrlType = "CR"
      · exact absurd ((c4 g3).1.symm.trans c6) (by decide)
      by_cases g4 : q.ctrlType = "CP"
      · exact absurd ((c5 g4).1.symm.trans c6) (by decide)
      unfold BtM.control at hc
      rw [if_neg g1, if_neg (fun h => g2 h.1), if_neg g2, if_neg g3, if_neg g4, if_neg hr] at hc
      cases hc

/-- a constant current sequence -/
def cc (charge : String) (lims : List BLim) : BSeq :=
  { ctrlType := "CC", value := 1, unit := "A", vs := "<None>", charge := charge, lims := lims, recs := [],
    repeats := 0, loopTo := 0 }

example : (createStep (fun _ => some 1) [] 2 0 (cc "Charge" [])).map (fun s => (s.stepType, s.stepMode, s.value)) =
    .ok ("Dischrge ", "Current ", some 1) := by decide +kernel

/-! ### C31: loops -/

/-- the sequences `qs` start at position `k`; the one at `e` is an executed loop to `s` -/
def Act (k : Nat) (qs : List BSeq) (e s : Nat) : Prop :=
  k ≤ e ∧ ∃ q, qs[e - k]? = some q ∧ isActive q = true ∧ q.loopTo = s

theorem act_cons (k : Nat) (q : BSeq) (qs : List BSeq) (e s : Nat) :
    Act k (q :: qs) e s ↔ (e = k ∧ isActive q = true ∧ q.loopTo = s) ∨ Act (k + 1) qs e s := by
  unfold Act
  constructor
  · rintro ⟨h1, q', h2, h3, h4⟩
    by_cases he : e = k
    · subst he
      simp at h2; subst h2
      exact Or.inl ⟨rfl, h3, h4⟩
    · refine Or.inr ⟨by omega, q', ?_, h3, h4⟩
      rw [show e - k = (e - (k + 1)) + 1 by omega, List.getElem?_cons_succ] at h2
      exact h2
  · rintro (⟨h1, h2, h3⟩ | ⟨h1, q', h2, h3, h4⟩)
    · subst h1; exact ⟨le_refl _, q, by simp, h2, h3⟩
    · refine ⟨by omega, q', ?_, h3, h4⟩
      rw [show e - k = (e - (k + 1)) + 1 by omega, List.getElem?_cons_succ]
      exact h2

/-- what the first pass knows after the sequences from `k` on -/
structure RevInv (k : Nat) (qs : List BSeq) (st : RevState) : Prop where
  active : ∀ x, x ∈ st.active ↔ ∃ e, Act k qs e x
  cur : ∀ c, st.cur = some c → Act k qs c.2 c.1 ∧ ∀ e s, Act k qs e s → c.2 ≤ e
  none : st.cur = none → ∀ e s, ¬ Act k qs e s
  mono : ∀ e s e' s', Act k qs e s → Act k qs e' s' → e < e' → s < s'
  ranges : ∀ i c, rangeOf st.ranges i = some c → k ≤ i ∧ Act k qs c.2 c.1 ∧
    c.1 ≤ i ∧ i ≤ c.2 ∧ ∀ e s, Act k qs e s → i ≤ e → c.2 ≤ e

theorem rangeOf_cons (i : Nat) (c : Nat × Nat) (rs : List (Nat × (Nat × Nat))) (j : Nat) :
    rangeOf ((i, c) :: rs) j = if i = j then some c else rangeOf rs j := by
  unfold rangeOf
  rw [List.find?_cons]
  by_cases h : i = j
  · simp [h]
  · rw [if_neg h]
    have : (i == j) = false := by simpa using h
    simp [this]

theorem revPass_inv (qs : List BSeq) (k : Nat) (st : RevState) (h : revPass k qs = .ok st) :
    RevInv k qs st := by
  induction qs generalizing k st with
  | nil =>
    cases h
    refine ⟨?_, by simp, ?_, ?_, by intro i c hc; cases hc⟩
    · intro x; simp [Act]
    · intro _ e s h; simp [Act] at h
    · intro e s e' s' h; simp [Act] at h
  | cons q qs ih =>
    rw [revPass] at h
    simp only [bind, Except.bind] at h
    split at h
    · cases h
    rename_i st0 h0
    have inv := ih (k + 1) st0 h0
    unfold revStep at h
    split at h
    · cases h
    rename_i hov
    cases h
    have hge : ∀ e s, Act (k + 1) qs e s → k + 1 ≤ e := fun e s h => h.1
    have hlt : ∀ e s, isActive q = true → Act (k + 1) qs e s → q.loopTo < s := by
      intro e s ha hes
      cases hc : st0.cur with
      | none => exact absurd hes (inv.none hc e s)
      | some c =>
        obtain ⟨c1, c2⟩ := inv.cur c hc
        have hcl : q.loopTo < c.1 := by
          by_contra hcon
          apply hov
          rw [ha, hc]
          simp [overlaps]
          omega
        by_cases hce : e = c.2
        · have : s = c.1 := by
            obtain ⟨_, q1, a1, a2, a3⟩ := hes
            obtain ⟨_, q2, b1, b2, b3⟩ := c1
            rw [hce, b1] at a1
            cases a1
            rw [← a3, ← b3]
          omega
        · have := c2 e s hes
          have := inv.mono c.2 c.1 e s c1 hes (by omega)
          omega
    have hrest : ∀ i c, rangeOf st0.ranges i = some c → k ≤ i ∧ Act k (q :: qs) c.2 c.1 ∧
        c.1 ≤ i ∧ i ≤ c.2 ∧ ∀ e s, Act k (q :: qs) e s → i ≤ e → c.2 ≤ e := by
      intro i c hi
      obtain ⟨a, b, b', b'', d⟩ := inv.ranges i c hi
      refine ⟨by omega, (act_cons ..).mpr (Or.inr b), b', b'', ?_⟩
      intro e s hes hie
      rcases (act_cons ..).mp hes with ⟨e1, _⟩ | e1
      · omega
      · exact d e s e1 hie
    by_cases ha : isActive q = true
    · simp only [ha, if_true]
      have hcur : Act k (q :: qs) k q.loopTo := (act_cons ..).mpr (Or.inl ⟨rfl, ha, rfl⟩)
      have hmin : ∀ e s, Act k (q :: qs) e s → k ≤ e := fun e s h => h.1
      refine ⟨?_, ?_, (by intro h; cases h), ?_, ?_⟩
      · intro x
        rw [List.mem_cons, inv.active]
        constructor
        · rintro (h | ⟨e, h⟩)
          · subst h; exact ⟨k, hcur⟩
          · exact ⟨e, (act_cons ..).mpr (Or.inr h)⟩
        · rintro ⟨e, h⟩
          rcases (act_cons ..).mp h with ⟨_, _, h⟩ | h
          · exact Or.inl h.symm
          · exact Or.inr ⟨e, h⟩
      · intro c hc
        cases hc
        exact ⟨hcur, hmin⟩
      · intro e s e' s' h1 h2 hlt'
        rcases (act_cons ..).mp h1 with ⟨a, _, b⟩ | a
        · rcases (act_cons ..).mp h2 with ⟨a', _⟩ | a'
          · omega
          · rw [← b]; exact hlt e' s' ha a'
        · rcases (act_cons ..).mp h2 with ⟨a', _⟩ | a'
          · have := hge e s a; omega
          · exact inv.mono e s e' s' a a' hlt'
      · intro i c hi
        split at hi
        · rename_i hle
          rw [rangeOf_cons] at hi
          split at hi
          · rename_i hik
            cases hi
            subst hik
            exact ⟨le_refl _, hcur, hle, le_refl _, fun e s h _ => hmin e s h⟩
          · exact hrest i c hi
        · exact hrest i c hi
    · simp only [ha, if_false, Bool.false_eq_true]
      have hiff : ∀ e s, Act k (q :: qs) e s ↔ Act (k + 1) qs e s := by
        intro e s
        rw [act_cons]
        constructor
        · rintro (⟨_, h, _⟩ | h)
          · exact absurd h ha
          · exact h
        · exact Or.inr
      refine ⟨?_, ?_, ?_, ?_, ?_⟩
      · intro x
        rw [inv.active]
        constructor
        · rintro ⟨e, h⟩; exact ⟨e, (hiff ..).mpr h⟩
        · rintro ⟨e, h⟩; exact ⟨e, (hiff ..).mp h⟩
      · intro c hc
        obtain ⟨a, b⟩ := inv.cur c hc
        exact ⟨(hiff ..).mpr a, fun e s h => b e s ((hiff ..).mp h)⟩
      · intro hn e s h
        exact inv.none hn e s ((hiff ..).mp h)
      · intro e s e' s' h1 h2
        exact inv.mono e s e' s' ((hiff ..).mp h1) ((hiff ..).mp h2)
      · intro i c hi
        split at hi
        · exact hrest i c hi
        · rename_i c' hc'
          split at hi
          · rename_i hle
            rw [rangeOf_cons] at hi
            split at hi
            · rename_i hik
              cases hi
              subst hik
              obtain ⟨a, b⟩ := inv.cur c hc'
              refine ⟨le_refl _, (hiff ..).mpr a, hle, by have := a.1; omega, ?_⟩
              intro e s h _
              exact b e s ((hiff ..).mp h)
            · exact hrest i c hi
          · exact hrest i c hi

/-- executed loops of a sequence list, as an interval of positions -/
def IsLoop (seqs : List BSeq) (s e : Nat) : Prop :=
  ∃ q, seqs[e]? = some q ∧ q.ctrlType = "Loop" ∧ q.repeats ≠ 0 ∧ q.loopTo = s

theorem isActive_iff (q : BSeq) : isActive q = true ↔ q.ctrlType = "Loop" ∧ q.repeats ≠ 0 := by
  simp [isActive]

theorem act_zero (seqs : List BSeq) (s e : Nat) : Act 0 seqs e s ↔ IsLoop seqs s e := by
  unfold Act IsLoop
  simp only [Nat.zero_le, true_and, Nat.sub_zero, isActive_iff, and_assoc]

theorem loops_disjoint (seqs : List BSeq) (rev : RevState) (hr : revPass 0 seqs = .ok rev)
    (hs : startsOk rev = true) :
    (∀ s e, IsLoop seqs s e → s ≤ e) ∧
    ∀ s e s' e', IsLoop seqs s e → IsLoop seqs s' e' → e < e' → e < s' := by
  have inv := revPass_inv seqs 0 rev hr
  have key : ∀ s e, IsLoop seqs s e → s ≤ e ∧ ∀ s' e', IsLoop seqs s' e' → s ≤ e' → e ≤ e' := by
    intro s e hl
    have ha := (act_zero ..).mpr hl
    have hm : s ∈ rev.active := (inv.active s).mpr ⟨e, ha⟩
    unfold startsOk at hs
    rw [List.all_eq_true] at hs
    have := hs s hm
    split at this
    · cases this
    · rename_i c hc
      have hcs : c.1 = s := by simpa using this
      obtain ⟨_, c1, c2, c3, c4⟩ := inv.ranges s c hc
      have hce : c.2 = e := by
        rcases lt_trichotomy c.2 e with hlt | heq | hgt
        · have := inv.mono _ _ _ _ c1 ha hlt; omega
        · exact heq
        · have := inv.mono _ _ _ _ ha c1 hgt; omega
      rw [hce] at c3 c4
      exact ⟨c3, fun s' e' h he => c4 e' s' ((act_zero ..).mpr h) he⟩
  refine ⟨fun s e h => (key s e h).1, ?_⟩
  intro s e s' e' h h' hlt
  by_contra hcon
  have := (key s' e' h').2 s e h (by omega)
  omega

/-- C31: in a converted technique the executed loops are pairwise disjoint intervals. -/
theorem C31_disjoint (seqs : List BSeq) (steps : List MStep) (h : createSteps seqs = .ok steps) :
    (∀ s e, IsLoop seqs s e → s ≤ e) ∧
    ∀ s e s' e', IsLoop seqs s e → IsLoop seqs s' e' → e < e' → e < s' := by
  unfold createSteps at h
  simp only [bind, Except.bind] at h
  split at h
  · cases h
  rename_i rev hrev
  split at h
  · cases h
  rename_i hs
  exact loops_disjoint seqs rev hrev (by simpa using hs)

/-! ### C31: layout -/

theorem blank_iff (q : BSeq) : blank q = true ↔ q.ctrlType = "Loop" ∧ q.repeats = 0 := by simp [blank]

theorem advance_iff (seqs : List BSeq) (i : Nat) (q : BSeq) : advance seqs i q = true ↔
    q.ctrlType = "Loop" ∧ q.repeats ≠ 0 ∧ q.loopTo + 1 = i ∧ ∃ b, seqs[q.loopTo]? = some b ∧ blank b = true := by
  unfold advance
  cases hb : seqs[q.loopTo]? with
  | none => simp
  | some b =>
    simp only [Bool.and_eq_true, beq_iff_eq, Bool.not_eq_true', Option.some.injEq, exists_eq_left']
    constructor
    · rintro ⟨⟨⟨a, b'⟩, c⟩, d⟩
      refine ⟨a, ?_, c, d⟩
      intro h0
      rw [(blank_iff q).mpr ⟨a, h0⟩] at b'
      cases b'
    · rintro ⟨a, b', c, d⟩
      refine ⟨⟨⟨a, ?_⟩, c⟩, d⟩
      cases hq : blank q with
      | false => rfl
      | true => exact absurd ((blank_iff q).mp hq).2 b'

theorem starts_iff (seqs : List BSeq) (i : Nat) : starts seqs i = true ↔ ∃ e, IsLoop seqs i e := by
  unfold starts IsLoop
  rw [List.any_eq_true]
  constructor
  · rintro ⟨q, hq, h⟩
    obtain ⟨e, he⟩ := List.mem_iff_getElem?.mp hq
    simp only [Bool.and_eq_true, beq_iff_eq, Bool.not_eq_true'] at h
    refine ⟨e, q, he, h.1.1, ?_, h.2⟩
    intro h0
    rw [(blank_iff q).mpr ⟨h.1.1, h0⟩] at h
    exact absurd h.1.2 (by decide)
  · rintro ⟨e, q, he, h1, h2, h3⟩
    refine ⟨q, List.mem_iff_getElem?.mpr ⟨e, he⟩, ?_⟩
    simp only [Bool.and_eq_true, beq_iff_eq, Bool.not_eq_true']
    refine ⟨⟨h1, ?_⟩, h3⟩
    cases hq : blank q with
    | false => rfl
    | true => exact absurd ((blank_iff q).mp hq).2 h2

/-- a loop that is not an explicit advance goes to a sequence that is not a loop -/
def Targets (seqs : List BSeq) : Prop :=
  ∀ (i : Nat) q, seqs[i]? = some q → q.ctrlType = "Loop" → q.repeats ≠ 0 → advance seqs i q = false →
    ∃ t, seqs[q.loopTo]? = some t ∧ t.ctrlType ≠ "Loop"

theorem start_not_loop (seqs : List BSeq) (ht : Targets seqs) (i : Nat) (q : BSeq) (hq : seqs[i]? = some q)
    (hs : starts seqs i = true) (hb : blank q = false) : q.ctrlType ≠ "Loop" := by
  obtain ⟨e, p, hp, h1, h2, h3⟩ := (starts_iff seqs i).mp hs
  cases ha : advance seqs e p with
  | true =>
    obtain ⟨_, _, _, b, hb1, hb2⟩ := (advance_iff ..).mp ha
    rw [h3, hq] at hb1
    cases hb1
    rw [hb] at hb2; cases hb2
  | false =>
    obtain ⟨t, t1, t2⟩ := ht e p hp h1 h2 ha
    rw [h3, hq] at t1
    cases t1
    exact t2

/-- blank loops known after `i` sequences -/
def BlanksOk (seqs : List BSeq) (blanks : List Nat) (i : Nat) : Prop :=
  ∀ j, j ∈ blanks ↔ j < i ∧ ∃ b, seqs[j]? = some b ∧ blank b = true

theorem numStep_blanks (seqs : List BSeq) (active : List Nat) (st st' : NumState) (i : Nat) (q : BSeq)
    (hq : seqs[i]? = some q) (hb : BlanksOk seqs st.blanks i) (h : numStep seqs active st i q = .ok st') :
    BlanksOk seqs st'.blanks (i + 1) ∧
    (q.ctrlType = "Loop" → q.repeats ≠ 0 → advance seqs i q = false →
      ∃ t, seqs[q.loopTo]? = some t ∧ t.ctrlType ≠ "Loop") := by
  have hext : ∀ blank' : BlanksOk seqs st.blanks i, blank q = false → BlanksOk seqs st.blanks (i + 1) := by
    intro _ hbq j
    rw [hb j]
    constructor
    · rintro ⟨a, b⟩; exact ⟨by omega, b⟩
    · rintro ⟨a, b, c, d⟩
      refine ⟨?_, b, c, d⟩
      by_contra hcon
      have : j = i := by omega
      subst this
      rw [hq] at c; cases c
      rw [hbq] at d; cases d
  unfold numStep at h
  by_cases h1 : q.ctrlType = "Loop" ∧ q.repeats = 0
  · rw [if_pos h1] at h
    cases h
    refine ⟨?_, fun _ hr => absurd h1.2 hr⟩
    intro j
    show j ∈ i :: st.blanks ↔ _
    rw [List.mem_cons, hb j]
    constructor
    · rintro (h | ⟨a, b⟩)
      · subst h; exact ⟨by omega, q, hq, (blank_iff q).mpr h1⟩
      · exact ⟨by omega, b⟩
    · rintro ⟨a, b⟩
      by_cases hj : j = i
      · exact Or.inl hj
      · exact Or.inr ⟨by omega, b⟩
  rw [if_neg h1] at h
  have hbq : blank q = false := by
    cases hc : blank q with
    | false => rfl
    | true => exact absurd ((blank_iff q).mp hc) h1
  by_cases h2 : q.ctrlType = "Loop" ∧ q.loopTo + 1 = i ∧ q.loopTo ∈ st.blanks
  · rw [if_pos h2] at h
    cases h
    refine ⟨hext hb hbq, ?_⟩
    intro hl hr ha
    obtain ⟨a, b, c⟩ := h2
    have := (advance_iff seqs i q).mpr ⟨a, hr, b, ((hb _).mp c).2⟩
    rw [ha] at this; cases this
  rw [if_neg h2] at h
  simp only at h
  by_cases h3 : q.ctrlType = "Loop"
  · rw [if_pos h3] at h
    split at h
    · cases h
    rename_i t ht
    split at h
    · cases h
    rename_i htl
    cases h
    exact ⟨hext hb hbq, fun _ _ _ => ⟨t, ht, htl⟩⟩
  · rw [if_neg h3] at h
    cases h
    exact ⟨hext hb hbq, fun hl => absurd hl h3⟩

theorem cons_drop {α : Type} {l : List α} {i : Nat} {a : α} {as : List α} (h : l.drop i = a :: as) :
    l[i]? = some a ∧ l.drop (i + 1) = as := by
  constructor
  · have := congrArg List.head? h
    rwa [List.head?_drop] at this
  · have := congrArg List.tail h
    rwa [List.tail_drop] at this

theorem numPass_blanks (seqs : List BSeq) (active : List Nat) (qs : List BSeq) (st st' : NumState) (i : Nat)
    (hqs : seqs.drop i = qs) (hi : i ≤ seqs.length) (hb : BlanksOk seqs st.blanks i)
    (h : numPass seqs active st i qs = .ok st') :
    BlanksOk seqs st'.blanks seqs.length ∧
    ∀ (j : Nat) q, i ≤ j → seqs[j]? = some q → q.ctrlType = "Loop" → q.repeats ≠ 0 → advance seqs j q = false →
      ∃ t, seqs[q.loopTo]? = some t ∧ t.ctrlType ≠ "Loop" := by
  induction qs generalizing st i with
  | nil =>
    cases h
    have : seqs.length ≤ i := List.drop_eq_nil_iff.mp hqs
    have : i = seqs.length := by omega
    subst this
    refine ⟨hb, ?_⟩
    intro j q hj hq
    have := (List.getElem?_eq_some_iff.mp hq).1
    omega
  | cons q qs ih =>
    rw [numPass] at h
    simp only [bind, Except.bind] at h
    split at h
    · cases h
    rename_i st1 h1
    obtain ⟨hq, hd⟩ := cons_drop hqs
    have hil := (List.getElem?_eq_some_iff.mp hq).1
    obtain ⟨a, b⟩ := numStep_blanks seqs active st st1 i q hq hb h1
    obtain ⟨c, d⟩ := ih st1 (i + 1) hd (by omega) a h
    refine ⟨c, ?_⟩
    intro j q' hj hq'
    by_cases hji : j = i
    · subst hji; rw [hq] at hq'; cases hq'; exact b
    · exact d j q' (by omega) hq'

theorem numOf_cons (i n : Nat) (l : List (Nat × Nat)) (j : Nat) :
    numOf ((i, n) :: l) j = if i = j then some n else numOf l j := by
  unfold numOf
  rw [List.find?_cons]
  by_cases h : i = j
  · simp [h]
  · rw [if_neg h]
    have : (i == j) = false := by simpa using h
    simp [this]

/-- numbering after `i` sequences -/
def NumsOk (seqs : List BSeq) (st : NumState) (i : Nat) : Prop :=
  st.cur = before seqs i + 1 ∧
  ∀ j n, numOf st.nums j = some n ↔ j < i ∧ (∃ q, seqs[j]? = some q ∧ blank q = false) ∧ n = stepNo seqs j

theorem width_eq (seqs : List BSeq) (i : Nat) (q : BSeq) (hq : seqs[i]? = some q) :
    width seqs i = if blank q then 0 else if advance seqs i q then 1 else if q.ctrlType = "Loop" then 2
      else if starts seqs i then 2 else 1 := by
  unfold width; rw [hq]

theorem numStep_nums (seqs : List BSeq) (active : List Nat) (hact : ∀ x, x ∈ active ↔ starts seqs x = true)
    (ht : Targets seqs) (st st' : NumState) (i : Nat) (q : BSeq)
    (hq : seqs[i]? = some q) (hb : BlanksOk seqs st.blanks i) (hn : NumsOk seqs st i)
    (h : numStep seqs active st i q = .ok st') : NumsOk seqs st' (i + 1) := by
  obtain ⟨hcur, hnum⟩ := hn
  have hw := width_eq seqs i q hq
  have hadd : ∀ n, blank q = false → n = stepNo seqs i → ∀ j m, numOf ((i, n) :: st.nums) j = some m ↔
      j < i + 1 ∧ (∃ q, seqs[j]? = some q ∧ blank q = false) ∧ m = stepNo seqs j := by
    intro n hbq hnn j m
    rw [numOf_cons]
    by_cases hij : i = j
    · subst hij
      rw [if_pos rfl]
      constructor
      · intro h; cases h; exact ⟨by omega, ⟨q, hq, hbq⟩, hnn⟩
      · rintro ⟨_, _, h⟩; rw [h, hnn]
    · rw [if_neg hij, hnum j m]
      constructor
      · rintro ⟨a, b⟩; exact ⟨by omega, b⟩
      · rintro ⟨a, b⟩; exact ⟨by omega, b⟩
  unfold numStep at h
  by_cases h1 : q.ctrlType = "Loop" ∧ q.repeats = 0
  · rw [if_pos h1] at h
    cases h
    have hbq := (blank_iff q).mpr h1
    rw [hbq, if_pos rfl] at hw
    refine ⟨by show st.cur = _; rw [before, hw, hcur], ?_⟩
    intro j m
    show numOf st.nums j = some m ↔ _
    rw [hnum j m]
    constructor
    · rintro ⟨a, b⟩; exact ⟨by omega, b⟩
    · rintro ⟨a, ⟨b, c, d⟩, e⟩
      refine ⟨?_, ⟨b, c, d⟩, e⟩
      by_contra hcon
      have : j = i := by omega
      subst this
      rw [hq] at c; cases c
      rw [hbq] at d; cases d
  rw [if_neg h1] at h
  have hbq : blank q = false := by
    cases hc : blank q with
    | false => rfl
    | true => exact absurd ((blank_iff q).mp hc) h1
  rw [hbq, if_neg (by decide)] at hw
  by_cases h2 : q.ctrlType = "Loop" ∧ q.loopTo + 1 = i ∧ q.loopTo ∈ st.blanks
  · rw [if_pos h2] at h
    cases h
    obtain ⟨a, b, c⟩ := h2
    have hr : q.repeats ≠ 0 := fun h0 => h1 ⟨a, h0⟩
    have hadv := (advance_iff seqs i q).mpr ⟨a, hr, b, ((hb _).mp c).2⟩
    rw [hadv, if_pos rfl] at hw
    have hns : starts seqs i = false := by
      cases hs : starts seqs i with
      | false => rfl
      | true => exact absurd a (start_not_loop seqs ht i q hq hs hbq)
    refine ⟨by show st.cur + 1 = _; rw [before, hw, hcur], hadd _ hbq ?_⟩
    unfold stepNo; rw [hns, hcur]; simp
  rw [if_neg h2] at h
  have hadv : advance seqs i q = false := by
    cases hc : advance seqs i q with
    | false => rfl
    | true =>
      obtain ⟨a, _, b, c⟩ := (advance_iff ..).mp hc
      exact absurd ⟨a, b, (hb _).mpr ⟨by omega, c⟩⟩ h2
  rw [hadv, if_neg (by decide)] at hw
  simp only at h
  by_cases h3 : q.ctrlType = "Loop"
  · rw [if_pos h3] at h
    rw [if_pos h3] at hw
    split at h
    · cases h
    split at h
    · cases h
    cases h
    have hns : starts seqs i = false := by
      cases hs : starts seqs i with
      | false => rfl
      | true => exact absurd h3 (start_not_loop seqs ht i q hq hs hbq)
    have hna : i ∉ active := by
      intro hh; rw [(hact i).mp hh] at hns; cases hns
    refine ⟨?_, ?_⟩
    · show (if i ∈ active then st.cur + 1 else st.cur) + 2 = _
      rw [if_neg hna, before, hw, hcur]
    · refine hadd _ hbq ?_
      rw [if_neg hna]
      unfold stepNo; rw [hns, hcur]; simp
  · rw [if_neg h3] at h
    rw [if_neg h3] at hw
    cases h
    cases hs : starts seqs i with
    | true =>
      have hna : i ∈ active := (hact i).mpr hs
      rw [hs, if_pos rfl] at hw
      refine ⟨?_, ?_⟩
      · show (if i ∈ active then st.cur + 1 else st.cur) + 1 = _
        rw [if_pos hna, before, hw, hcur]
      · refine hadd _ hbq ?_
        rw [if_pos hna]
        unfold stepNo; rw [hs, hcur]; simp
    | false =>
      have hna : i ∉ active := by
        intro hh; rw [(hact i).mp hh] at hs; cases hs
      rw [hs, if_neg (by decide)] at hw
      refine ⟨?_, ?_⟩
      · show (if i ∈ active then st.cur + 1 else st.cur) + 1 = _
        rw [if_neg hna, before, hw, hcur]
      · refine hadd _ hbq ?_
        rw [if_neg hna]
        unfold stepNo; rw [hs, hcur]; simp

theorem numPass_nums (seqs : List BSeq) (active : List Nat) (hact : ∀ x, x ∈ active ↔ starts seqs x = true)
    (ht : Targets seqs) (qs : List BSeq) (st st' : NumState) (i : Nat)
    (hqs : seqs.drop i = qs) (hi : i ≤ seqs.length) (hb : BlanksOk seqs st.blanks i) (hn : NumsOk seqs st i)
    (h : numPass seqs active st i qs = .ok st') : NumsOk seqs st' seqs.length := by
  induction qs generalizing st i with
  | nil =>
    cases h
    have : seqs.length ≤ i := List.drop_eq_nil_iff.mp hqs
    have : i = seqs.length := by omega
    subst this
    exact hn
  | cons q qs ih =>
    rw [numPass] at h
    simp only [bind, Except.bind] at h
    split at h
    · cases h
    rename_i st1 h1
    obtain ⟨hq, hd⟩ := cons_drop hqs
    have hil := (List.getElem?_eq_some_iff.mp hq).1
    exact ih st1 (i + 1) hd (by omega) (numStep_blanks seqs active st st1 i q hq hb h1).1
      (numStep_nums seqs active hact ht st st1 i q hq hb hn h1) h

/-- the steps behind a Do step known after `i` sequences -/
def LoopStepsOk (seqs : List BSeq) (st : NumState) (i : Nat) : Prop :=
  ∀ m, m ∈ st.loopSteps ↔ ∃ s q, s < i ∧ seqs[s]? = some q ∧ blank q = false ∧ starts seqs s = true ∧ m = stepNo seqs s

theorem numStep_loops (seqs : List BSeq) (active : List Nat) (hact : ∀ x, x ∈ active ↔ starts seqs x = true)
    (ht : Targets seqs) (st st' : NumState) (i : Nat) (q : BSeq)
    (hq : seqs[i]? = some q) (hn : NumsOk seqs st i) (hl : LoopStepsOk seqs st i)
    (h : numStep seqs active st i q = .ok st') : LoopStepsOk seqs st' (i + 1) := by
  have keep : (blank q = true ∨ starts seqs i = false) → ∀ m, m ∈ st.loopSteps ↔
      ∃ s q, s < i + 1 ∧ seqs[s]? = some q ∧ blank q = false ∧ starts seqs s = true ∧ m = stepNo seqs s := by
    intro hc m
    rw [hl m]
    constructor
    · rintro ⟨s, p, a, b⟩; exact ⟨s, p, by omega, b⟩
    · rintro ⟨s, p, a, b, c, d, e⟩
      refine ⟨s, p, ?_, b, c, d, e⟩
      by_contra hcon
      have : s = i := by omega
      subst this
      rw [hq] at b; cases b
      rcases hc with hc | hc
      · rw [hc] at c; cases c
      · rw [hc] at d; cases d
  have notStart : blank q = false → q.ctrlType = "Loop" → starts seqs i = false := by
    intro hb hlp
    cases hs : starts seqs i with
    | false => rfl
    | true => exact absurd hlp (start_not_loop seqs ht i q hq hs hb)
  unfold numStep at h
  by_cases h1 : q.ctrlType = "Loop" ∧ q.repeats = 0
  · rw [if_pos h1] at h
    cases h
    exact keep (Or.inl ((blank_iff q).mpr h1))
  rw [if_neg h1] at h
  have hbq : blank q = false := by
    cases hc : blank q with
    | false => rfl
    | true => exact absurd ((blank_iff q).mp hc) h1
  by_cases h2 : q.ctrlType = "Loop" ∧ q.loopTo + 1 = i ∧ q.loopTo ∈ st.blanks
  · rw [if_pos h2] at h
    cases h
    exact keep (Or.inr (notStart hbq h2.1))
  rw [if_neg h2] at h
  simp only at h
  by_cases h3 : q.ctrlType = "Loop"
  · rw [if_pos h3] at h
    split at h
    · cases h
    split at h
    · cases h
    cases h
    have hns := notStart hbq h3
    have hna : i ∉ active := by
      intro hh; rw [(hact i).mp hh] at hns; cases hns
    intro m
    show m ∈ (if i ∈ active then _ else st.loopSteps) ↔ _
    rw [if_neg hna]
    exact keep (Or.inr hns) m
  · rw [if_neg h3] at h
    cases h
    intro m
    cases hs : starts seqs i with
    | false =>
      have hna : i ∉ active := by
        intro hh; rw [(hact i).mp hh] at hs; cases hs
      show m ∈ (if i ∈ active then _ else st.loopSteps) ↔ _
      rw [if_neg hna]
      exact keep (Or.inr hs) m
    | true =>
      have hna : i ∈ active := (hact i).mpr hs
      show m ∈ (if i ∈ active then (if i ∈ active then st.cur + 1 else st.cur) :: st.loopSteps else st.loopSteps) ↔ _
      rw [if_pos hna, if_pos hna, List.mem_cons, hl m, hn.1]
      have hno : stepNo seqs i = before seqs i + 1 + 1 := by unfold stepNo; rw [hs]; simp
      constructor
      · rintro (h | ⟨s, p, a, b⟩)
        · exact ⟨i, q, by omega, hq, hbq, hs, by omega⟩
        · exact ⟨s, p, by omega, b⟩
      · rintro ⟨s, p, a, b, c, d, e⟩
        by_cases hsi : s = i
        · subst hsi; left; omega
        · exact Or.inr ⟨s, p, by omega, b, c, d, e⟩

theorem numPass_loops (seqs : List BSeq) (active : List Nat) (hact : ∀ x, x ∈ active ↔ starts seqs x = true)
    (ht : Targets seqs) (qs : List BSeq) (st st' : NumState) (i : Nat)
    (hqs : seqs.drop i = qs) (hi : i ≤ seqs.length) (hb : BlanksOk seqs st.blanks i) (hn : NumsOk seqs st i)
    (hl : LoopStepsOk seqs st i) (h : numPass seqs active st i qs = .ok st') : LoopStepsOk seqs st' seqs.length := by
  induction qs generalizing st i with
  | nil =>
    cases h
    have : seqs.length ≤ i := List.drop_eq_nil_iff.mp hqs
    have : i = seqs.length := by omega
    subst this
    exact hl
  | cons q qs ih =>
    rw [numPass] at h
    simp only [bind, Except.bind] at h
    split at h
    · cases h
    rename_i st1 h1
    obtain ⟨hq, hd⟩ := cons_drop hqs
    have hil := (List.getElem?_eq_some_iff.mp hq).1
    exact ih st1 (i + 1) hd (by omega) (numStep_blanks seqs active st st1 i q hq hb h1).1
      (numStep_nums seqs active hact ht st st1 i q hq hb hn h1)
      (numStep_loops seqs active hact ht st st1 i q hq hn hl h1) h

theorem behindDo_iff (seqs : List BSeq) (st : NumState) (hl : LoopStepsOk seqs st seqs.length) (m : Nat) :
    BehindDo seqs m ↔ m ∈ st.loopSteps := by
  rw [hl m]
  constructor
  · rintro ⟨s, q, a, b⟩; exact ⟨s, q, (List.getElem?_eq_some_iff.mp a).1, a, b⟩
  · rintro ⟨s, q, _, b⟩; exact ⟨s, q, b⟩

theorem before_mono (seqs : List BSeq) (i j : Nat) (h : i ≤ j) : before seqs i ≤ before seqs j := by
  induction j with
  | zero => simp at h; subst h; exact le_refl _
  | succ j ih =>
    by_cases hij : i = j + 1
    · subst hij; exact le_refl _
    · have := ih (by omega)
      rw [before]; omega

/-- the number of a step is at most the number of steps up to its sequence -/
theorem stepNo_le (seqs : List BSeq) (ht : Targets seqs) (i : Nat) (q : BSeq) (hq : seqs[i]? = some q)
    (hb : blank q = false) : stepNo seqs i ≤ before seqs (i + 1) := by
  unfold stepNo
  rw [before, width_eq seqs i q hq, hb, if_neg (show ¬ (false = true) by decide)]
  cases hs : starts seqs i with
  | false => simp only [Bool.false_eq_true, if_false]; split_ifs <;> omega
  | true =>
    have := start_not_loop seqs ht i q hq hs hb
    have hadv : advance seqs i q = false := by
      cases hc : advance seqs i q with
      | false => rfl
      | true => exact absurd ((advance_iff ..).mp hc).1 this
    rw [hadv, if_neg (show ¬ (false = true) by decide), if_neg this, if_pos rfl, if_pos rfl]

/-- placement without the position of the Do step of a loop -/
def Local (seqs : List BSeq) (n : Nat) (steps : List MStep) (i : Nat) (q : BSeq) : Prop :=
  if blank q then True
  else if advance seqs i q then (at? steps (before seqs i + 1)).map MStep.stepType = some "AdvCycle"
  else if q.ctrlType = "Loop" then
    (at? steps (before seqs i + 1)).map MStep.stepType = some "AdvCycle" ∧
    ∃ l e, at? steps (before seqs i + 2) = some l ∧ l.stepType = " Loop 1 " ∧ l.ends = [e] ∧
      e.step = stepNo seqs q.loopTo - 1
  else
    (starts seqs i = true → (at? steps (before seqs i + 1)).map MStep.stepType = some "  Do 1  ") ∧
    ∃ s, at? steps (stepNo seqs i) = some s ∧ s.stepType ∈ controlled ∧
      List.Forall₂ (Follows seqs n i) q.lims s.ends ∧ ∃ num ls, createStep num ls n i q = .ok s

theorem at?_pre (pre l : List MStep) (n k : Nat) (h : pre.length = n) : at? (pre ++ l) (n + k + 1) = l[k]? := by
  unfold at?
  rw [if_neg (by omega), show n + k + 1 - 1 = n + k by omega, List.getElem?_append_right (by omega)]
  congr 1; omega

theorem follows_spec (seqs : List BSeq) (ht : Targets seqs) (st : NumState) (hn : NumsOk seqs st seqs.length)
    (hls : LoopStepsOk seqs st seqs.length)
    (i : Nat) (q : BSeq) (hq : seqs[i]? = some q) (hb : blank q = false) (l : BLim) (e : MEnd)
    (h : convertLim (numOf st.nums) st.loopSteps st.cur i (stepNo seqs i) l = .ok e) :
    Follows seqs st.cur i l e := by
  unfold convertLim at h
  simp only [bind, Except.bind] at h
  split at h
  · cases h
  split at h
  · cases h
  split at h
  · cases h
  rename_i t htg
  cases h
  have hil := (List.getElem?_eq_some_iff.mp hq).1
  have hcur := hn.1
  have hle := stepNo_le seqs ht i q hq hb
  have hm := before_mono seqs (i + 1) seqs.length (by omega)
  unfold Follows
  simp only
  unfold endTarget at htg
  by_cases h1 : l.action = "End"
  · rw [if_pos h1] at htg
    cases htg
    rw [h1]
    refine ⟨fun _ => rfl, fun h => absurd h (by decide), fun h => absurd h (by decide), fun h => absurd h (by decide),
      fun h => absurd h (by decide), fun h => absurd h (by decide), by decide, by omega, le_refl _⟩
  rw [if_neg h1] at htg
  by_cases h2 : l.action = "Next sequence"
  · rw [if_pos h2] at htg
    cases htg
    rw [h2]
    refine ⟨fun h => absurd h (by decide), fun _ => rfl, fun h => absurd h (by decide), fun h => absurd h (by decide),
      fun h => absurd h (by decide), fun h => absurd h (by decide), by decide, by omega, by omega⟩
  rw [if_neg h2] at htg
  by_cases h3 : l.action = "Goto sequence"
  · rw [if_pos h3] at htg
    split at htg
    · cases htg
    rename_i m hm'
    obtain ⟨g1, ⟨g, g2, g3⟩, g4⟩ := (hn.2 _ _).mp hm'
    have hle' := stepNo_le seqs ht l.goto g g2 g3
    have hm2 := before_mono seqs (l.goto + 1) seqs.length (by omega)
    have hpos : 1 ≤ stepNo seqs i := by unfold stepNo; omega
    have hpos' : before seqs l.goto + 1 ≤ stepNo seqs l.goto := by unfold stepNo; omega
    refine ⟨fun h => absurd h h1, fun h => absurd h h2, ?_, ?_, ?_, fun _ => ⟨g, g2, g3⟩, Or.inr (Or.inr h3), ?_, ?_⟩
    · intro _ hgi
      rw [if_neg (by omega)] at htg
      cases htg
      exact g4
    · intro _ _ hd
      rw [if_neg (fun hc => hd ((behindDo_iff seqs st hls _).mpr hc.2))] at htg
      cases htg
      exact g4
    · intro _ hgi hd
      rw [if_pos ⟨hgi, (behindDo_iff seqs st hls _).mp hd⟩] at htg
      cases htg
      rw [g4]
    · split at htg
      · rename_i hc
        cases htg
        have := before_mono seqs (i + 1) l.goto (by omega)
        omega
      · cases htg; omega
    · split at htg <;> cases htg <;> omega
  · rw [if_neg h3] at htg
    cases htg

theorem emit_spec (seqs : List BSeq) (active : List Nat) (hact : ∀ x, x ∈ active ↔ starts seqs x = true)
    (ht : Targets seqs) (st : NumState) (hbl : BlanksOk seqs st.blanks seqs.length) (hn : NumsOk seqs st seqs.length)
    (hls : LoopStepsOk seqs st seqs.length) (i : Nat) (q : BSeq) (hq : seqs[i]? = some q) (out : List MStep) (h : emit active st i q = .ok out) :
    out.length = width seqs i ∧
    ∀ pre rest : List MStep, pre.length = before seqs i → Local seqs st.cur (pre ++ (out ++ rest)) i q := by
  have hil := (List.getElem?_eq_some_iff.mp hq).1
  have hw := width_eq seqs i q hq
  unfold emit at h
  cases hbq : blank q with
  | true =>
    rw [if_pos ((hbl i).mpr ⟨hil, q, hq, hbq⟩)] at h
    cases h
    rw [hbq, if_pos rfl] at hw
    refine ⟨hw.symm, ?_⟩
    intro pre rest _
    unfold Local; rw [hbq, if_pos rfl]; trivial
  | false =>
    have hnb : i ∉ st.blanks := by
      intro hh
      obtain ⟨_, b, hb1, hb2⟩ := (hbl i).mp hh
      rw [hq] at hb1; cases hb1
      rw [hbq] at hb2; cases hb2
    rw [if_neg hnb] at h
    rw [hbq, if_neg (by decide)] at hw
    simp only at h
    by_cases h2 : q.ctrlType = "Loop" ∧ q.loopTo + 1 = i ∧ q.loopTo ∈ st.blanks
    · rw [if_pos h2] at h
      cases h
      obtain ⟨a, b, c⟩ := h2
      have hr : q.repeats ≠ 0 := by
        intro h0
        rw [(blank_iff q).mpr ⟨a, h0⟩] at hbq; cases hbq
      have hadv := (advance_iff seqs i q).mpr ⟨a, hr, b, ((hbl _).mp c).2⟩
      have hna : i ∉ active := by
        intro hh
        exact start_not_loop seqs ht i q hq ((hact i).mp hh) hbq a
      rw [hadv, if_pos rfl] at hw
      rw [if_neg hna]
      refine ⟨by rw [hw]; rfl, ?_⟩
      intro pre rest hpre
      unfold Local
      rw [hbq, if_neg (by decide), hadv, if_pos rfl]
      have := at?_pre pre (([] ++ [plain "AdvCycle"]) ++ rest) _ 0 hpre
      rw [Nat.add_zero] at this
      rw [this]; rfl
    rw [if_neg h2] at h
    have hadv : advance seqs i q = false := by
      cases hc : advance seqs i q with
      | false => rfl
      | true =>
        obtain ⟨a, _, b, c⟩ := (advance_iff ..).mp hc
        exact absurd ⟨a, b, (hbl _).mpr ⟨by omega, c⟩⟩ h2
    rw [hadv, if_neg (by decide)] at hw
    by_cases h3 : q.ctrlType = "Loop"
    · rw [if_pos h3] at h
      rw [if_pos h3] at hw
      simp only [bind, Except.bind] at h
      split at h
      · cases h
      rename_i l hl
      cases h
      have hna : i ∉ active := by
        intro hh
        exact start_not_loop seqs ht i q hq ((hact i).mp hh) hbq h3
      rw [if_neg hna]
      refine ⟨by rw [hw]; rfl, ?_⟩
      intro pre rest hpre
      unfold Local
      rw [hbq, if_neg (by decide), hadv, if_neg (by decide), if_pos h3]
      unfold loopStep at hl
      split at hl
      · cases hl
      rename_i m hm
      split at hl
      · cases hl
      cases hl
      obtain ⟨_, _, hm'⟩ := (hn.2 _ _).mp hm
      refine ⟨?_, { plain " Loop 1 " with
          ends := [{ endType := "Loop Cnt", oper := " = ", value := .empty, step := m - 1, stepValue := some q.repeats }] }, _, ?_, rfl, rfl, ?_⟩
      · have := at?_pre pre (([] ++ [plain "AdvCycle", { plain " Loop 1 " with
          ends := [{ endType := "Loop Cnt", oper := " = ", value := .empty, step := m - 1, stepValue := some q.repeats }] }]) ++ rest) _ 0 hpre
        rw [Nat.add_zero] at this
        rw [this]; rfl
      · have := at?_pre pre (([] ++ [plain "AdvCycle", { plain " Loop 1 " with
          ends := [{ endType := "Loop Cnt", oper := " = ", value := .empty, step := m - 1, stepValue := some q.repeats }] }]) ++ rest) _ 1 hpre
        rw [show before seqs i + 2 = before seqs i + 1 + 1 by omega, this]; rfl
      · rw [hm']
    · rw [if_neg h3] at h
      rw [if_neg h3] at hw
      simp only [bind, Except.bind] at h
      split at h
      · cases h
      rename_i s hs
      cases h
      obtain ⟨step, c, e1, _, e2, e3, _, _, e4⟩ := createStep_spec _ _ _ _ _ _ hs
      obtain ⟨_, _, hstep⟩ := (hn.2 _ _).mp e1
      subst hstep
      have hty : s.stepType ∈ controlled := by
        rw [e3]
        rcases (control_spec q c e2).2.2.2.2.2 with hc | hc
        · rw [hc]; unfold chargeType; split <;> decide
        · rw [hc]; decide
      have hfol : List.Forall₂ (Follows seqs st.cur i) q.lims s.ends :=
        e4.imp (fun l e hle => follows_spec seqs ht st hn hls i q hq hbq l e hle)
      cases hst : starts seqs i with
      | true =>
        rw [hst, if_pos rfl] at hw
        rw [if_pos ((hact i).mpr hst)]
        refine ⟨by rw [hw]; rfl, ?_⟩
        intro pre rest hpre
        unfold Local
        rw [hbq, if_neg (by decide), hadv, if_neg (by decide), if_neg h3]
        refine ⟨fun _ => ?_, s, ?_, hty, hfol, _, _, hs⟩
        · have := at?_pre pre (([plain "  Do 1  "] ++ [s]) ++ rest) _ 0 hpre
          rw [Nat.add_zero] at this
          rw [this]; rfl
        · have := at?_pre pre (([plain "  Do 1  "] ++ [s]) ++ rest) _ 1 hpre
          unfold stepNo
          rw [hst, if_pos rfl, this]; rfl
      | false =>
        rw [hst, if_neg (by decide)] at hw
        rw [if_neg (by intro hh; rw [(hact i).mp hh] at hst; cases hst)]
        refine ⟨by rw [hw]; rfl, ?_⟩
        intro pre rest hpre
        unfold Local
        rw [hbq, if_neg (by decide), hadv, if_neg (by decide), if_neg h3]
        refine ⟨fun h => (by rw [hst] at h; cases h), s, ?_, hty, hfol, _, _, hs⟩
        have := at?_pre pre (([] ++ [s]) ++ rest) _ 0 hpre
        unfold stepNo
        rw [hst, if_neg (by decide), this]; rfl

theorem emitPass_spec (seqs : List BSeq) (active : List Nat) (hact : ∀ x, x ∈ active ↔ starts seqs x = true)
    (ht : Targets seqs) (st : NumState) (hbl : BlanksOk seqs st.blanks seqs.length) (hn : NumsOk seqs st seqs.length)
    (hls : LoopStepsOk seqs st seqs.length) (qs : List BSeq) (i : Nat) (hqs : seqs.drop i = qs) (hi : i ≤ seqs.length) (out : List MStep)
    (h : emitPass active st i qs = .ok out) :
    out.length + before seqs i = before seqs seqs.length ∧
    ∀ pre rest : List MStep, pre.length = before seqs i → ∀ (j : Nat) q, i ≤ j → seqs[j]? = some q →
      Local seqs st.cur (pre ++ (out ++ rest)) j q := by
  induction qs generalizing i out with
  | nil =>
    cases h
    have : seqs.length ≤ i := List.drop_eq_nil_iff.mp hqs
    have : i = seqs.length := by omega
    subst this
    refine ⟨by simp, ?_⟩
    intro pre rest _ j q hj hq
    have := (List.getElem?_eq_some_iff.mp hq).1
    omega
  | cons q qs ih =>
    rw [emitPass] at h
    simp only [bind, Except.bind] at h
    split at h
    · cases h
    rename_i m hm
    split at h
    · cases h
    rename_i out' hout
    cases h
    obtain ⟨hq, hd⟩ := cons_drop hqs
    have hil := (List.getElem?_eq_some_iff.mp hq).1
    obtain ⟨a, b⟩ := emit_spec seqs active hact ht st hbl hn hls i q hq m hm
    obtain ⟨c, d⟩ := ih (i + 1) hd (by omega) out' hout
    rw [before] at c
    refine ⟨by rw [List.length_append]; omega, ?_⟩
    intro pre rest hpre j q' hj hq'
    by_cases hji : j = i
    · subst hji
      rw [hq] at hq'; cases hq'
      rw [List.append_assoc]
      exact b pre (out' ++ rest) hpre
    · have := d (pre ++ m) rest (by rw [List.length_append, hpre, a, before]) j q' (by omega) hq'
      rw [List.append_assoc] at this
      rw [List.append_assoc]
      exact this

theorem createSteps_local (seqs : List BSeq) (steps : List MStep) (h : createSteps seqs = .ok steps) :
    Targets seqs ∧ steps.length = before seqs seqs.length + 1 ∧ steps.getLast? = some (plain "  End   ") ∧
    ∀ (i : Nat) q, seqs[i]? = some q → Local seqs steps.length steps i q := by
  unfold createSteps at h
  simp only [bind, Except.bind] at h
  split at h
  · cases h
  rename_i rev hrev
  split at h
  · cases h
  split at h
  · cases h
  rename_i st hst
  split at h
  · cases h
  split at h
  · cases h
  rename_i out hout
  cases h
  have hact : ∀ x, x ∈ rev.active ↔ starts seqs x = true := by
    intro x
    rw [(revPass_inv seqs 0 rev hrev).active x, starts_iff]
    constructor
    · rintro ⟨e, he⟩; exact ⟨e, (act_zero ..).mp he⟩
    · rintro ⟨e, he⟩; exact ⟨e, (act_zero ..).mpr he⟩
  have hb0 : BlanksOk seqs [] 0 := by intro j; simp
  obtain ⟨hbl, ht'⟩ := numPass_blanks seqs rev.active seqs _ st 0 rfl (by omega) hb0 hst
  have ht : Targets seqs := fun i q hq => ht' i q (by omega) hq
  have hn0 : NumsOk seqs { cur := 1, loopSteps := [], blanks := [], nums := [] } 0 :=
    ⟨rfl, by intro j n; simp [numOf]⟩
  have hn := numPass_nums seqs rev.active hact ht seqs _ st 0 rfl (by omega) hb0 hn0 hst
  have hl0 : LoopStepsOk seqs { cur := 1, loopSteps := [], blanks := [], nums := [] } 0 := by intro m; simp
  have hls := numPass_loops seqs rev.active hact ht seqs _ st 0 rfl (by omega) hb0 hn0 hl0 hst
  obtain ⟨hlen, hloc⟩ := emitPass_spec seqs rev.active hact ht st hbl hn hls seqs 0 rfl (by omega) out hout
  have hl : (out ++ [plain "  End   "]).length = st.cur := by
    rw [List.length_append, hn.1]
    simp only [before, List.length_singleton] at *
    omega
  refine ⟨ht, by rw [hl, hn.1], by simp, ?_⟩
  intro i q hq
  have := hloc [] [plain "  End   "] rfl i q (by omega) hq
  rwa [List.nil_append, ← hl] at this

/-- a sequence that is not a loop is converted by `createStep`, at its step number -/
theorem createSteps_created (seqs : List BSeq) (steps : List MStep) (h : createSteps seqs = .ok steps)
    (i : Nat) (q : BSeq) (hq : seqs[i]? = some q) (hl : q.ctrlType ≠ "Loop") :
    ∃ s num ls n, at? steps (stepNo seqs i) = some s ∧ createStep num ls n i q = .ok s := by
  obtain ⟨_, _, _, hloc⟩ := createSteps_local seqs steps h
  have h1 := hloc i q hq
  unfold Local at h1
  rw [if_neg (fun hb => hl ((blank_iff q).mp hb).1), if_neg (fun ha => hl ((advance_iff ..).mp ha).1),
    if_neg hl] at h1
  obtain ⟨_, s, h2, _, _, num, ls, h3⟩ := h1
  exact ⟨s, num, ls, _, h2, h3⟩

/-- C31: the steps of a converted technique are those of its sequences in order, followed by End;
every loop is a Do/Loop pair around the looped sequences, and every end entry names an existing
step, which is the right one unless it is a forward jump.  Missing: forward jumps into a loop. -/
theorem C31_layout_partial (seqs : List BSeq) (steps : List MStep) (h : createSteps seqs = .ok steps) :
    steps.length = before seqs seqs.length + 1 ∧ steps.getLast? = some (plain "  End   ") ∧
    ∀ (i : Nat) q, seqs[i]? = some q → Placed seqs steps i q := by
  obtain ⟨ht, hlen, hlast, hloc'⟩ := createSteps_local seqs steps h
  refine ⟨hlen, hlast, ?_⟩
  intro i q hq
  have h1 := hloc' i q hq
  unfold Local at h1
  unfold Placed
  split at h1
  · rename_i hb; rw [if_pos hb]; trivial
  rename_i hb
  rw [if_neg hb]
  split at h1
  · rename_i ha; rw [if_pos ha]; exact h1
  rename_i ha
  rw [if_neg ha]
  split at h1
  · rename_i hlp
    rw [if_pos hlp]
    obtain ⟨g1, l, e, g2, g3, g4, g5⟩ := h1
    have hr : q.repeats ≠ 0 := fun h0 => hb ((blank_iff q).mpr ⟨hlp, h0⟩)
    obtain ⟨t, t1, t2⟩ := ht i q hq hlp hr (by simpa using ha)
    have hs : starts seqs q.loopTo = true := (starts_iff ..).mpr ⟨i, q, hq, hlp, hr, rfl⟩
    have htb : ¬ blank t = true := fun hh => t2 ((blank_iff t).mp hh).1
    have hta : ¬ advance seqs q.loopTo t = true := fun hh => t2 ((advance_iff ..).mp hh).1
    have h2 := hloc' q.loopTo t t1
    unfold Local at h2
    rw [if_neg htb, if_neg hta, if_neg t2] at h2
    have he : e.step = before seqs q.loopTo + 1 := by
      rw [g5]; unfold stepNo; rw [hs]; simp
    exact ⟨g1, l, e, g2, g3, g4, he, by rw [he]; exact h2.1 hs⟩
  · rename_i hlp
    rw [if_neg hlp]
    obtain ⟨g1, s, g2, g3, g4, _⟩ := h1
    exact ⟨g1, s, g2, g3, g4⟩

/-! ### C31: jumps -/

/-- the first pass records a range for every position inside a loop -/
theorem revPass_covers (qs : List BSeq) (k : Nat) (st : RevState) (h : revPass k qs = .ok st) (i e s : Nat)
    (hk : k ≤ i) (ha : Act k qs e s) (hs : s ≤ i) (he : i ≤ e)
    (hmin : ∀ e' s', Act k qs e' s' → i ≤ e' → e ≤ e') : rangeOf st.ranges i = some (s, e) := by
  induction qs generalizing k st with
  | nil => simp [Act] at ha
  | cons q qs ih =>
    rw [revPass] at h
    simp only [bind, Except.bind] at h
    split at h
    · cases h
    rename_i st0 h0
    have inv := revPass_inv qs (k + 1) st0 h0
    unfold revStep at h
    split at h
    · cases h
    cases h
    simp only
    by_cases hik : i = k
    · subst hik
      by_cases hq : isActive q = true
      · have hmin1 := hmin i q.loopTo ((act_cons ..).mpr (Or.inl ⟨rfl, hq, rfl⟩)) (le_refl _)
        have hei : e = i := by omega
        subst hei
        have hsl : s = q.loopTo := by
          rcases (act_cons ..).mp ha with h | h
          · exact h.2.2.symm
          · have := h.1; omega
        subst hsl
        rw [if_pos hq]
        simp only
        rw [if_pos hs, rangeOf_cons, if_pos rfl]
      · have ha' : Act (i + 1) qs e s := by
          rcases (act_cons ..).mp ha with h | h
          · exact absurd h.2.1 hq
          · exact h
        rw [if_neg hq]
        cases hc : st0.cur with
        | none => exact absurd ha' (inv.none hc e s)
        | some c =>
          obtain ⟨c1, c2⟩ := inv.cur c hc
          have h1 := c2 e s ha'
          have h2 := hmin c.2 c.1 ((act_cons ..).mpr (Or.inr c1)) (by have := c1.1; omega)
          have hce : c.2 = e := by omega
          have hcs : c.1 = s := by
            obtain ⟨_, q1, g1, _, g2⟩ := c1
            obtain ⟨_, q2, g3, _, g4⟩ := ha'
            rw [hce, g3] at g1
            cases g1
            rw [← g2, ← g4]
          simp only
          rw [if_pos (by omega), rangeOf_cons, if_pos rfl, ← hcs, ← hce]
    · have ha' : Act (k + 1) qs e s := by
        rcases (act_cons ..).mp ha with h | h
        · omega
        · exact h
      have := ih (k + 1) st0 h0 (by omega) ha' (fun e' s' h' => hmin e' s' ((act_cons ..).mpr (Or.inr h')))
      split
      · exact this
      · split
        · rw [rangeOf_cons, if_neg (fun e => hik e.symm)]; exact this
        · exact this

/-- what the check of the jumps guarantees -/
theorem gotoPass_ok (ranges : List (Nat × (Nat × Nat))) (blanks : List Nat) (qs : List BSeq) (le : Option Nat) (i : Nat)
    (hle : ∀ e, le = some e → e < i) (h : gotoPass ranges blanks le i qs = true) (j : Nat) (q : BSeq)
    (hq : qs[j]? = some q) (hnl : q.ctrlType ≠ "Loop") (hb : i + j ∉ blanks) (l : BLim) (hl : l ∈ q.lims) :
    (∀ e, le = some e → e ≤ l.goto) ∧
    (∀ (k : Nat) p, k < j → qs[k]? = some p → p.ctrlType = "Loop" → i + k ∉ blanks → i + k ≤ l.goto) ∧
    ∀ b, rangeOf ranges l.goto = some b → rangeOf ranges (i + j) = some b ∨
      (rangeOf ranges (i + j) = none ∧ l.goto = b.1) := by
  induction qs generalizing le i j with
  | nil => simp at hq
  | cons p qs ih =>
    rw [gotoPass] at h
    cases j with
    | zero =>
      simp only [List.getElem?_cons_zero, Option.some.injEq] at hq
      subst hq
      rw [Nat.add_zero] at hb
      rw [if_neg hb, if_neg hnl, Bool.and_eq_true, List.all_eq_true] at h
      have h1 := h.1 l hl
      unfold gotoOk at h1
      rw [Bool.and_eq_true] at h1
      refine ⟨?_, by intro k _ hk; omega, ?_⟩
      · intro e he
        have := h1.1
        rw [he] at this
        simpa using this
      · intro b hb'
        have := h1.2
        rw [hb'] at this
        rw [Nat.add_zero]
        cases hr : rangeOf ranges i with
        | none => rw [hr] at this; right; exact ⟨rfl, by simpa using this⟩
        | some a => rw [hr] at this; left; simpa using this
    | succ j =>
      rw [List.getElem?_cons_succ] at hq
      have hij : i + (j + 1) = i + 1 + j := by omega
      rw [hij] at hb ⊢
      by_cases hbl : i ∈ blanks
      · rw [if_pos hbl] at h
        obtain ⟨r1, r2, r3⟩ := ih le (i + 1) (fun e he => by have := hle e he; omega) h j hq hb
        refine ⟨r1, ?_, r3⟩
        intro k p' hk hp' hpl hkb
        cases k with
        | zero => exact absurd hbl hkb
        | succ k =>
          rw [List.getElem?_cons_succ] at hp'
          have := r2 k p' (by omega) hp' hpl (by rwa [show i + 1 + k = i + (k + 1) by omega])
          omega
      · rw [if_neg hbl] at h
        by_cases hpl : p.ctrlType = "Loop"
        · rw [if_pos hpl] at h
          obtain ⟨r1, r2, r3⟩ := ih (some i) (i + 1) (fun e he => by injection he with he; omega) h j hq hb
          have hi := r1 i rfl
          refine ⟨fun e he => by have := hle e he; omega, ?_, r3⟩
          intro k p' hk hp' hpl hkb
          cases k with
          | zero => simpa using hi
          | succ k =>
            rw [List.getElem?_cons_succ] at hp'
            have := r2 k p' (by omega) hp' hpl (by rwa [show i + 1 + k = i + (k + 1) by omega])
            omega
        · rw [if_neg hpl, Bool.and_eq_true] at h
          obtain ⟨r1, r2, r3⟩ := ih le (i + 1) (fun e he => by have := hle e he; omega) h.2 j hq hb
          refine ⟨r1, ?_, r3⟩
          intro k p' hk hp' hpl' hkb
          cases k with
          | zero =>
            simp only [List.getElem?_cons_zero, Option.some.injEq] at hp'
            subst hp'
            exact absurd hpl' hpl
          | succ k =>
            rw [List.getElem?_cons_succ] at hp'
            have := r2 k p' (by omega) hp' hpl' (by rwa [show i + 1 + k = i + (k + 1) by omega])
            omega

/-- C31: jumps that a Maccor procedure cannot make are refused.  In a converted technique no limit of a
sequence names a sequence before the end of an earlier executed loop, and a sequence inside a loop
is named only from inside the same loop, or as its start by a sequence outside all loops. -/
theorem C31_jumps (seqs : List BSeq) (steps : List MStep) (h : createSteps seqs = .ok steps)
    (i : Nat) (q : BSeq) (hq : seqs[i]? = some q) (hnl : q.ctrlType ≠ "Loop") (l : BLim) (hl : l ∈ q.lims) :
    (∀ s e, IsLoop seqs s e → e < i → e ≤ l.goto) ∧
    ∀ s e, IsLoop seqs s e → s ≤ l.goto → l.goto ≤ e →
      (s ≤ i ∧ i ≤ e) ∨ (l.goto = s ∧ ∀ s' e', IsLoop seqs s' e' → ¬ (s' ≤ i ∧ i ≤ e')) := by
  have hdis := C31_disjoint seqs steps h
  unfold createSteps at h
  simp only [bind, Except.bind] at h
  split at h
  · cases h
  rename_i rev hrev
  split at h
  · cases h
  split at h
  · cases h
  rename_i st hst
  split at h
  · cases h
  rename_i hg
  have hg : gotoPass rev.ranges st.blanks none 0 seqs = true := by simpa using hg
  have hb0 : BlanksOk seqs [] 0 := by intro j; simp
  obtain ⟨hbl, -⟩ := numPass_blanks seqs rev.active seqs _ st 0 rfl (by omega) hb0 hst
  have hnb : ∀ (k : Nat) p, seqs[k]? = some p → blank p = false → k ∉ st.blanks := by
    intro k p hp hpb hk
    obtain ⟨_, b, hb1, hb2⟩ := (hbl k).mp hk
    rw [hp] at hb1
    cases hb1
    rw [hpb] at hb2
    cases hb2
  have hib : 0 + i ∉ st.blanks := by
    rw [Nat.zero_add]
    apply hnb i q hq
    simp [blank, hnl]
  obtain ⟨-, r2, r3⟩ := gotoPass_ok rev.ranges st.blanks seqs none 0 (by simp) hg i q hq hnl hib l hl
  rw [Nat.zero_add] at r3
  have hcov : ∀ j s e, IsLoop seqs s e → s ≤ j → j ≤ e → rangeOf rev.ranges j = some (s, e) := by
    intro j s e hse h1 h2
    refine revPass_covers seqs 0 rev hrev j e s (by omega) ((act_zero ..).mpr hse) h1 h2 ?_
    intro e' s' ha' hj
    by_contra hlt
    have := hdis.2 s' e' s e ((act_zero ..).mp ha') hse (by omega)
    omega
  constructor
  · rintro s e ⟨p, hp, hpl, hpr, -⟩ hei
    have := r2 e p hei hp hpl (by rw [Nat.zero_add]; exact hnb e p hp (by simp [blank, hpr]))
    omega
  · intro s e hse h1 h2
    rcases r3 _ (hcov l.goto s e hse h1 h2) with h3 | ⟨h3, h4⟩
    · left
      have := (revPass_inv seqs 0 rev hrev).ranges i _ h3
      exact ⟨this.2.2.1, this.2.2.2.1⟩
    · right
      refine ⟨h4, ?_⟩
      intro s' e' hse' hin
      rw [hcov i s' e' hse' hin.1 hin.2] at h3
      cases h3

/-! ### examples -/

def loopTo (t : Nat) (n : Int) : BSeq :=
  { ctrlType := "Loop", value := 0, unit := "", vs := "", charge := "Charge", lims := [], recs := [],
    repeats := n, loopTo := t }

def lim (action : String) (g : Nat) : BLim :=
  { type := "Ecell", comp := ">", value := 4, unit := "V", action := action, goto := g }

def shape (seqs : List BSeq) : Except Err (List (String × List Nat)) :=
  (createSteps seqs).map (fun l => l.map (fun s => (s.stepType, s.ends.map MEnd.step)))

/-- a blank loop and an advance, a loop over two sequences, and the end -/
example : shape [cc "Discharge" [lim "Next sequence" 1], loopTo 0 0, loopTo 1 1,
    cc "Discharge" [lim "Next sequence" 4], cc "Discharge" [lim "Goto sequence" 3, lim "End" 5], loopTo 3 2,
    cc "Discharge" [lim "Next sequence" 7]] =
    .ok [("Dischrge ", [2]), ("AdvCycle", []), ("  Do 1  ", []), ("Dischrge ", [5]), ("Dischrge ", [4, 9]),
      ("AdvCycle", []), (" Loop 1 ", [3]), ("Dischrge ", [9]), ("  End   ", [])] := by decide +kernel

/-- jumps into the middle of a loop, out of one loop into another and back over a loop are refused; a jump
within the loop and one to its start are not -/
example : let three := fun g => [cc "Discharge" [lim "Goto sequence" g], cc "Discharge" [], cc "Discharge" [],
      loopTo 1 2, cc "Discharge" []]
    (shape (three 2)).toOption = none ∧ (shape (three 1)).toOption.isSome = true ∧
    (shape [cc "Discharge" [], cc "Discharge" [], cc "Discharge" [lim "Goto sequence" 1], loopTo 1 2]).toOption.isSome
      = true ∧
    (shape [cc "Discharge" [], loopTo 0 2, cc "Discharge" [lim "Goto sequence" 0]]).toOption = none ∧
    (shape [cc "Discharge" [lim "Goto sequence" 2], loopTo 0 2, cc "Discharge" [], loopTo 2 2]).toOption = none := by
  decide +kernel

/-- overlapping loops are refused -/
example : shape [cc "Discharge" [], cc "Discharge" [], loopTo 0 1, loopTo 1 1] = .error .assertionError := by
  decide +kernel

/-- C31 fails: a forward jump to the start of a loop lands behind its Do step; whether the Do step
is used depends on whether a step with that number starts a loop. -/
theorem C31_goto_violated :
    ∃ seqs steps, createSteps seqs = .ok steps ∧ starts seqs 2 = true ∧
      (∃ q, seqs[0]? = some q ∧ q.lims.map (fun l => (l.action, l.goto)) = [("Goto sequence", 2)]) ∧
      (at? steps (before seqs 2 + 1)).map MStep.stepType = some "  Do 1  " ∧
      (at? steps 1).map (fun s => s.ends.map MEnd.step) = some [before seqs 2 + 2] := by
  refine ⟨[cc "Discharge" [lim "Goto sequence" 2], cc "Discharge" [], cc "Discharge" [], cc "Discharge" [], loopTo 2 3],
    _, rfl, ?_, ⟨_, rfl, ?_⟩, ?_, ?_⟩ <;> decide +kernel

/-- C31: a loop is written exactly when the step it goes back to exists and its number has at most
three digits; its end entry names that step and has the number of repetitions under the key "StepValue". -/
theorem C31_loop_number (num : Nat → Option Nat) (q : BSeq) (s : MStep) :
    loopStep num q = .ok s ↔ ∃ n, num q.loopTo = some n ∧ n ≤ 1000 ∧
      s = ⟨" Loop 1 ", "        ", none, [⟨"Loop Cnt", " = ", .empty, n - 1, some q.repeats⟩], []⟩ := by
  unfold loopStep
  cases num q.loopTo with
  | none =>
    constructor
    · intro h; cases h
    · rintro ⟨_, h, _⟩; cases h
  | some n =>
    simp only [Option.some.injEq]
    by_cases h : n - 1 > 999
    · rw [if_pos h]
      constructor
      · intro h; cases h
      · rintro ⟨n', rfl, h2, _⟩; omega
    · rw [if_neg h]
      constructor
      · intro h'; cases h'; exact ⟨n, rfl, by omega, rfl⟩
      · rintro ⟨n', rfl, _, rfl⟩; rfl

/-- C31 fails: the number of repetitions of a loop is not written into the value of its end entry. -/
theorem C31_count_violated (num : Nat → Option Nat) (q : BSeq) (s : MStep) (h : loopStep num q = .ok s) :
    s.ends.map MEnd.value = [MVal.empty] := by
  unfold loopStep at h
  split at h
  · cases h
  split at h
  · cases h
  cases h
  rfl

end Beep.Props.BiologicToMaccor
