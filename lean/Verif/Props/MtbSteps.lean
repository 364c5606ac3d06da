import Verif.Proof.Base
import Verif.Proof.Py
import Verif.Spec.MaccorToBiologic
/-
C26-C28: sequence mappings, end entry filters and split steps of the Maccor to Biologic
conversion.
-/
namespace Beep.Props.MtbSteps
open Beep Beep.MtB Beep.Units Beep.Spec.MtB

/-! ### C26 -/

/-- C26 (partial: only the last mapping in the fixed order): without user supplied mappers
the minimum voltage is written and no other field is touched. -/
theorem C26_last_partial (l : LimitText) (seq : SeqFields) (v : String) (hv : l.minV = some v) :
    (mapSeq l [] seq).get? "E Range Min (V)" = some v ∧
    ∀ k, k ≠ "E Range Min (V)" → (mapSeq l [] seq).get? k = seq.get? k := by
  simp only [mapSeq, List.foldl_nil, applyLimit, hv]
  exact ⟨Dict.get?_set_self _ _ _, fun k hk => Dict.get?_set_ne _ _ hk⟩

/-- C26 fails for the three other limits: for every configuration and every sequence they are
not written. -/
theorem C26_dropped_violated (l : LimitText) (seq : SeqFields) (k : String)
    (hk : k ∈ ["I Range Max", "I Range Min", "E Range Max (V)"]) :
    (mapSeq l [] seq).get? k = seq.get? k := by
  simp only [mapSeq, List.foldl_nil]
  unfold applyLimit
  cases l.minV with
  | none => rfl
  | some v =>
    apply Dict.get?_set_ne
    simp only [List.mem_cons, List.not_mem_nil, or_false] at hk
    rcases hk with rfl | rfl | rfl <;> decide

/-- C26 fails for user supplied mappers: only the last one has an effect, the earlier ones
and the configured limits are lost. -/
theorem C26_mappers_violated (l : LimitText) (ms : List (SeqFields → SeqFields))
    (m : SeqFields → SeqFields) (seq : SeqFields) : mapSeq l (ms ++ [m]) seq = m seq := by
  simp [mapSeq, List.foldl_append]

/-- the default configuration of the converter (4.45 V and 0 V) loses the maximum voltage -/
example : mapSeq { maxI := none, minI := none, maxV := some "4.450", minV := some "0.000" } []
    [("Ns", "0"), ("E Range Min (V)", "2.0"), ("E Range Max (V)", "5.0")] =
    [("Ns", "0"), ("E Range Min (V)", "0.000"), ("E Range Max (V)", "5.0")] := by decide +kernel

/-! ### C27 -/

theorem filterE_eq {α : Type} (pred : α → Except Err Bool) (keep : α → Prop) [DecidablePred keep]
    (l : List α) (h : ∀ a ∈ l, pred a = .ok (decide (keep a))) :
    filterE pred l = .ok (l.filter (fun a => decide (keep a))) := by
  induction l with
  | nil => rfl
  | cons a l ih =>
    rw [filterE, h a (List.mem_cons_self ..), ih (fun b hb => h b (List.mem_cons_of_mem _ hb))]
    simp only [List.filter_cons]
    cases hk : decide (keep a) <;> rfl

theorem filterEnds_many (pred : EndEntry → Except Err Bool) (keep : EndEntry → Prop) [DecidablePred keep]
    (s : Step) (l : List EndEntry) (hs : s.ends = .many l ∨ (s.ends = .absent ∧ l = []))
    (h : ∀ a ∈ l, pred a = .ok (decide (keep a))) :
    ∃ s', filterEnds pred s = .ok s' ∧ { s' with ends := s.ends } = s ∧
      (s'.ends = .many (l.filter (fun a => decide (keep a))) ∨
        (s'.ends = .absent ∧ l.filter (fun a => decide (keep a)) = [])) := by
  rcases hs with hs | ⟨hs, rfl⟩
  · unfold filterEnds
    rw [hs]
    simp only [filterE_eq pred keep l h]
    by_cases hl : (l.filter (fun a => decide (keep a))).length = l.length
    · refine ⟨s, by simp only [Bind.bind, Except.bind, hl, if_true]; rfl, by rw [← hs], Or.inl ?_⟩
      rw [hs, List.filter_eq_self.mpr]
      intro a ha
      have := (List.length_filter_eq_length_iff).mp hl a ha
      exact this
    · by_cases hz : (l.filter (fun a => decide (keep a))).length > 0
      · refine ⟨{ s with ends := .many (l.filter (fun a => decide (keep a))) }, ?_, ?_, Or.inl rfl⟩
        · simp only [Bind.bind, Except.bind, hl, hz, if_true, if_false]; rfl
        · show { s with ends := Entries.many l } = s
          rw [← hs]
      · refine ⟨{ s with ends := .absent }, ?_, ?_, Or.inr ⟨rfl, ?_⟩⟩
        · simp only [Bind.bind, Except.bind, hl, hz, if_false]; rfl
        · show { s with ends := Entries.many l } = s
          rw [← hs]
        · exact List.length_eq_zero_iff.mp (by omega)
  · exact ⟨s, by simp [filterEnds, hs], rfl, Or.inr ⟨hs, rfl⟩⟩

/-- reading of the four predicates -/
def ReachMaxV (m : Option Rat) (e : EndEntry) : Prop :=
  ¬ ∃ v, number e.value = some v ∧ e.endType = "Voltage" ∧ e.oper = ">=" ∧ ∃ x, m = some x ∧ x ≤ v
def ReachMinV (m : Option Rat) (e : EndEntry) : Prop :=
  ¬ ∃ v, number e.value = some v ∧ e.endType = "Voltage" ∧ e.oper = "<=" ∧ ∃ x, m = some x ∧ v ≤ x
def ReachMaxI (m : Option Rat) (e : EndEntry) : Prop :=
  ¬ ∃ v, number e.value = some v ∧ e.endType = "Current" ∧ e.oper = ">=" ∧ ∃ x, m = some x ∧ x < v
def ReachMinI (m : Option Rat) (e : EndEntry) : Prop :=
  ¬ ∃ v, number e.value = some v ∧ e.endType = "Current" ∧ e.oper = "<=" ∧ ∃ x, m = some x ∧ v < x

theorem float_number (v : Val) (x : Rat) (h : number v = some x) : v.float = .ok x := by
  cases v with
  | num d => simp only [number, Option.some.injEq] at h; rw [← h]; rfl
  | time t => cases h
  | text s => cases h

open Classical in
theorem keepMaxVoltage_eq (m : Option Rat) (e : EndEntry) (h : WellTyped e) :
    keepMaxVoltage m e = .ok (decide (ReachMaxV m e)) := by
  cases m with
  | none => simp [keepMaxVoltage, ReachMaxV]
  | some m =>
    unfold keepMaxVoltage
    by_cases ht : e.endType = "Voltage"
    · obtain ⟨v, hv⟩ := h (Or.inl ht)
      simp only [ht, ne_eq, not_true_eq_false, if_false, float_number _ _ hv]
      simp only [ReachMaxV, hv, Option.some.injEq, exists_eq_left', ht, true_and]
      by_cases ho : e.oper = ">=" <;> by_cases hm : m ≤ v <;> simp [ho, hm, Bind.bind, Except.bind, Pure.pure, Except.pure]
    · simp [ht, ReachMaxV]

open Classical in
theorem keepMinVoltage_eq (m : Option Rat) (e : EndEntry) (h : WellTyped e) :
    keepMinVoltage m e = .ok (decide (ReachMinV m e)) := by
  cases m with
  | none => simp [keepMinVoltage, ReachMinV]
  | some m =>
    unfold keepMinVoltage
    by_cases ht : e.endType = "Voltage"
    · obtain ⟨v, hv⟩ := h (Or.inl ht)
      simp only [ht, ne_eq, not_true_eq_false, if_false, float_number _ _ hv]
      simp only [ReachMinV, hv, Option.some.injEq, exists_eq_left', ht, true_and]
      by_cases ho : e.oper = "<=" <;> by_cases hm : v ≤ m <;> simp [ho, hm, Bind.bind, Except.bind, Pure.pure, Except.pure]
    · simp [ht, ReachMinV]

open Classical in
theorem keepMaxCurrent_eq (m : Option Rat) (e : EndEntry) (h : WellTyped e) :
    keepMaxCurrent m e = .ok (decide (ReachMaxI m e)) := by
  cases m with
  | none => simp [keepMaxCurrent, ReachMaxI]
  | some m =>
    unfold keepMaxCurrent
    by_cases ht : e.endType = "Current"
    · obtain ⟨v, hv⟩ := h (Or.inr ht)
      simp only [ht, ne_eq, not_true_eq_false, if_false, float_number _ _ hv]
      simp only [ReachMaxI, hv, Option.some.injEq, exists_eq_left', ht, true_and]
      by_cases ho : e.oper = ">=" <;> by_cases hm : m < v <;> simp [ho, hm, Bind.bind, Except.bind, Pure.pure, Except.pure]
    · simp [ht, ReachMaxI]

open Classical in
theorem keepMinCurrent_eq (m : Option Rat) (e : EndEntry) (h : WellTyped e) :
    keepMinCurrent m e = .ok (decide (ReachMinI m e)) := by
  cases m with
  | none => simp [keepMinCurrent, ReachMinI]
  | some m =>
    unfold keepMinCurrent
    by_cases ht : e.endType = "Current"
    · obtain ⟨v, hv⟩ := h (Or.inr ht)
      simp only [ht, ne_eq, not_true_eq_false, if_false, float_number _ _ hv]
      simp only [ReachMinI, hv, Option.some.injEq, exists_eq_left', ht, true_and]
      by_cases ho : e.oper = "<=" <;> by_cases hm : v < m <;> simp [ho, hm, Bind.bind, Except.bind, Pure.pure, Except.pure]
    · simp [ht, ReachMinI]

theorem reach_iff (c : Config) (e : EndEntry) :
    (ReachMaxI c.maxI e ∧ ReachMinI c.minI e ∧ ReachMaxV c.maxV e ∧ ReachMinV c.minV e) ↔ ¬ Unreachable c e := by
  constructor
  · rintro ⟨h1, h2, h3, h4⟩ ⟨v, hv, h⟩
    rcases h with h | h | h | h
    · exact h3 ⟨v, hv, h⟩
    · exact h4 ⟨v, hv, h⟩
    · exact h1 ⟨v, hv, h⟩
    · exact h2 ⟨v, hv, h⟩
  · intro h
    refine ⟨?_, ?_, ?_, ?_⟩ <;> rintro ⟨v, hv, hh⟩ <;> apply h <;> refine ⟨v, hv, ?_⟩
    · exact Or.inr (Or.inr (Or.inl hh))
    · exact Or.inr (Or.inr (Or.inr hh))
    · exact Or.inl hh
    · exact Or.inr (Or.inl hh)

open Classical in
/-- C27 (partial: steps without end entries or with a list of them): exactly the unreachable
end entries are removed, the others are kept in order and the rest of the step is
unchanged. -/
theorem C27_filter_partial (c : Config) (s : Step) (hs : ∀ e, s.ends ≠ .single e)
    (ht : ∀ e ∈ s.ends.toList, WellTyped e) :
    ∃ s', mapStep c s = .ok s' ∧ { s' with ends := s.ends } = s ∧
      s'.ends.toList = s.ends.toList.filter (fun e => decide (¬ Unreachable c e)) := by
  have h0 : s.ends = .many s.ends.toList ∨ (s.ends = .absent ∧ s.ends.toList = []) := by
    cases h : s.ends with
    | absent => exact Or.inr ⟨rfl, rfl⟩
    | single e => exact absurd h (hs e)
    | many l => exact Or.inl rfl
  obtain ⟨s1, e1, r1, h1⟩ := filterEnds_many _ (ReachMaxI c.maxI) s _ h0
    (fun a ha => keepMaxCurrent_eq _ _ (ht a ha))
  have ht1 : ∀ e ∈ s.ends.toList.filter (fun a => decide (ReachMaxI c.maxI a)), WellTyped e :=
    fun e he => ht e (List.mem_filter.mp he).1
  obtain ⟨s2, e2, r2, h2⟩ := filterEnds_many _ (ReachMinI c.minI) s1 _ h1
    (fun a ha => keepMinCurrent_eq _ _ (ht1 a ha))
  have ht2 : ∀ e ∈ (s.ends.toList.filter (fun a => decide (ReachMaxI c.maxI a))).filter
      (fun a => decide (ReachMinI c.minI a)), WellTyped e :=
    fun e he => ht1 e (List.mem_filter.mp he).1
  obtain ⟨s3, e3, r3, h3⟩ := filterEnds_many _ (ReachMaxV c.maxV) s2 _ h2
    (fun a ha => keepMaxVoltage_eq _ _ (ht2 a ha))
  have ht3 : ∀ e ∈ ((s.ends.toList.filter (fun a => decide (ReachMaxI c.maxI a))).filter
      (fun a => decide (ReachMinI c.minI a))).filter (fun a => decide (ReachMaxV c.maxV a)), WellTyped e :=
    fun e he => ht2 e (List.mem_filter.mp he).1
  obtain ⟨s4, e4, r4, h4⟩ := filterEnds_many _ (ReachMinV c.minV) s3 _ h3
    (fun a ha => keepMinVoltage_eq _ _ (ht3 a ha))
  refine ⟨s4, ?_, ?_, ?_⟩
  · simp only [mapStep, e1, e2, e3, Bind.bind, Except.bind]
    exact e4
  · rw [← r4] at r3
    rw [← r3] at r2
    rw [← r2] at r1
    simpa using r1
  · have : s4.ends.toList = ((((s.ends.toList.filter (fun a => decide (ReachMaxI c.maxI a))).filter
        (fun a => decide (ReachMinI c.minI a))).filter (fun a => decide (ReachMaxV c.maxV a))).filter
        (fun a => decide (ReachMinV c.minV a))) := by
      rcases h4 with h | ⟨h, h'⟩
      · rw [h]; rfl
      · rw [h, h']; rfl
    rw [this, List.filter_filter, List.filter_filter, List.filter_filter]
    apply List.filter_congr
    intro e _
    have := reach_iff c e
    simp only [← Bool.decide_and, decide_eq_decide]
    rw [← this]
    tauto

/-- a decimal literal -/
def dec (i : Nat) (f : List (Fin 10)) : Val := .num { neg := false, int := i, frac := f, exp := 0 }

/-- a charge step with three ends -/
def exStep : Step :=
  { stepType := "Charge", stepMode := "Current", stepValue := some (dec 1 []), limits := none,
    ends := .many [{ endType := "Voltage", oper := ">=", value := dec 4 [5], step := 3 },
      { endType := "StepTime", oper := "=", value := .time ⟨1, 0, 0⟩, step := 3 },
      { endType := "Voltage", oper := ">=", value := dec 4 [2], step := 2 }],
    reports := .single { reportType := "StepTime", value := .time ⟨0, 1, 0⟩ } }

/-- the default limits of the converter -/
def exConfig : Config := { maxV := some (445 / 100), minV := some 0, maxI := none, minI := none }

example : (mapStep exConfig exStep).map (fun s => s.ends.toList.map EndEntry.endType) =
    .ok ["StepTime", "Voltage"] := by decide +kernel

/-- C27 fails for a step with a single end entry: nothing is ever removed. -/
theorem C27_single_violated (c : Config) (s : Step) (e : EndEntry) (hs : s.ends = .single e) :
    mapStep c s = .ok s := by
  have h : ∀ pred, filterEnds pred s = .ok s := by
    intro pred; unfold filterEnds; rw [hs]
  simp only [mapStep, h, Bind.bind, Except.bind]

/-- such an entry can be unreachable -/
example : Unreachable exConfig { endType := "Voltage", oper := ">=", value := dec 5 [], step := 2 } :=
  ⟨5, by decide +kernel, Or.inl ⟨rfl, rfl, 445 / 100, rfl, by decide +kernel⟩⟩

/-! ### C28 -/

/-- C28, steps without limits are not split. -/
theorem C28_no_limit (s : Step) (n : Int) (h : s.limits = none) : splitStep s n = .ok [s] := by
  unfold splitStep; rw [h]

/-- C28 (partial: the first part's original end conditions are missing, see
`C28_first_part_violated`): a split step has two parts; the first keeps the control mode and
value, ends when the limit is reached and continues with the second part; the second holds
the limit and has the original end conditions and reports. -/
theorem C28_split_partial (s : Step) (n : Int) (lims : Limits) (lim : Val)
    (hl : s.limits = some lims) (hm : s.stepMode = "Current" ∨ s.stepMode = "Voltage")
    (hv : (if s.stepMode = "Current" then lims.voltage else lims.current) = some lim)
    (ht : s.stepType = "Charge" ∨ s.stepType = "Dischrge") :
    ∃ p q e, splitStep s n = .ok [p, q] ∧
      p.stepMode = s.stepMode ∧ p.stepValue = s.stepValue ∧ p.stepType = s.stepType ∧ p.reports = s.reports ∧
      e ∈ p.ends.toList ∧ e.endType = other s.stepMode ∧ e.value = lim ∧ e.step = n + 1 ∧
      e.oper = (if s.stepType = "Charge" then ">=" else "<=") ∧
      q.stepMode = other s.stepMode ∧ q.stepValue = some lim ∧ q.stepType = s.stepType ∧ q.ends = s.ends ∧
      q.reports = s.reports := by
  unfold splitStep
  rw [hl]
  simp only
  rw [if_pos hm, hv]
  simp only
  rcases ht with ht | ht
  · rw [if_pos ht]
    refine ⟨_, _, _, rfl, rfl, rfl, rfl, rfl, List.mem_singleton.mpr rfl, rfl, rfl, rfl, ?_, rfl, rfl, rfl, rfl, rfl⟩
    rw [if_pos ht]
  · have hne : ¬ s.stepType = "Charge" := by rw [ht]; decide
    rw [if_neg hne, if_pos ht]
    refine ⟨_, _, _, rfl, rfl, rfl, rfl, rfl, List.mem_singleton.mpr rfl, rfl, rfl, rfl, ?_, rfl, rfl, rfl, rfl, rfl⟩
    rw [if_neg hne]

/-- C28 fails for every step that is split and has end conditions of its own: the first part
has a single end condition, the limit; it does not end on any of the original conditions. -/
theorem C28_first_part_violated (s p q : Step) (n : Int) (h : splitStep s n = .ok [p, q])
    (hl : s.limits ≠ none) :
    ∃ e, p.ends.toList = [e] ∧ e.endType = other s.stepMode ∧
      ∀ x ∈ s.ends.toList, x.endType ≠ other s.stepMode → x ∉ p.ends.toList := by
  unfold splitStep at h
  cases hlim : s.limits with
  | none => exact absurd hlim hl
  | some lims =>
    rw [hlim] at h
    simp only at h
    by_cases hm : s.stepMode = "Current" ∨ s.stepMode = "Voltage"
    · rw [if_pos hm] at h
      cases hv : (if s.stepMode = "Current" then lims.voltage else lims.current) with
      | none => rw [hv] at h; cases h
      | some lim =>
        rw [hv] at h
        simp only at h
        have key : ∀ e : EndEntry, e.endType = other s.stepMode →
            ∃ e', ([e] : List EndEntry) = [e'] ∧ e'.endType = other s.stepMode ∧
              ∀ x ∈ s.ends.toList, x.endType ≠ other s.stepMode → x ∉ [e] := by
          intro e he
          refine ⟨e, rfl, he, ?_⟩
          intro x _ hx hmem
          rw [List.mem_singleton] at hmem
          exact hx (hmem ▸ he)
        by_cases hc : s.stepType = "Charge"
        · rw [if_pos hc] at h; cases h; exact key _ rfl
        · rw [if_neg hc] at h
          by_cases hd : s.stepType = "Dischrge"
          · rw [if_pos hd] at h; cases h; exact key _ rfl
          · rw [if_neg hd] at h; cases h
    · rw [if_neg hm] at h; cases h

/-- a CC-CV charge: constant current until 4.2 V, at most one hour -/
def exSplit : Step :=
  { exStep with limits := some { voltage := some (dec 4 [2]), current := none },
                ends := .single { endType := "StepTime", oper := "=", value := .time ⟨1, 0, 0⟩, step := 3 } }

example : (splitStep exSplit 1).map (fun ps => ps.map (fun p => p.ends.toList.map EndEntry.endType)) =
    .ok [["Voltage"], ["StepTime"]] := by decide +kernel

end Beep.Props.MtbSteps
