import Verif.Proof.FastCharge
/-
C123: the schedules made for a fast charge run.
-/
namespace Beep.Props.FastCharge
open Beep Beep.Dash Beep.Arbin Beep.Spec.Dash Beep.Spec.Schedule Beep.Spec.FastCharge Beep.Proof.FastCharge
open Beep.Props.Schedule

/-- a path to a field of a step does not meet a path through another field -/
theorem apart_field (x y k l : Str) (p q : List Str) (h : k ≠ l) :
    Apart (kSchedule :: x :: k :: p) (kSchedule :: y :: l :: q) := by
  constructor <;> intro e <;> rw [List.cons_prefix_cons, List.cons_prefix_cons, List.cons_prefix_cons] at e
  · exact h e.2.2.1
  · exact h e.2.2.1.symm

theorem limit_ne {l : Str} (h : "Limit".toList <+: l) : "m_szCtrlValue".toList ≠ l := by
  rintro rfl
  exact absurd h (by decide)

/-- C123: the schedule differs from the template in these fields only.  The first step labelled
CC1 is controlled at the first current, the first step labelled CC2 at the second, and every limit
on the charge capacity that stops a step labelled CC1 is crossed upwards at the given capacity.
Each number is written as the decimal of the nearest thousandth.  Missing: an error when the
template has no such step. -/
theorem C123_schedule_partial (template s : Obj) (cc1 cap cc2 : Rat) (hd : Distinct template)
    (hs : template.find "Schedule".toList = some (.obj s))
    (hc : ∀ x ∈ labelled template "CC1".toList, ∀ l, IsLimit template x l →
      (∃ v, getP template ["Schedule".toList, x, l, "m_bStepLimit".toList] = some v) ∧
      (∃ v, getP template ["Schedule".toList, x, l, "Equation0_szLeft".toList] = some v) ∧
      ∀ k d, getP template ["Schedule".toList, x, l, k] ≠ some (.obj d)) :
    ∃ made, fromFastCharge template cc1 cap cc2 = .ok made ∧
      (∀ x, (labelled template "CC1".toList).head? = some x →
        ∃ t, getP made ["Schedule".toList, x, "m_szCtrlValue".toList] = some (.str t) ∧ Writes t cc1) ∧
      (∀ x, (labelled template "CC2".toList).head? = some x →
        ∃ t, getP made ["Schedule".toList, x, "m_szCtrlValue".toList] = some (.str t) ∧ Writes t cc2) ∧
      (∀ x ∈ labelled template "CC1".toList, ∀ l, IsLimit template x l →
        Stops template "PV_CHAN_Charge_Capacity".toList x l →
        getP made ["Schedule".toList, x, l, "Equation0_szCompareSign".toList] = some (.str ['>']) ∧
        ∃ t, getP made ["Schedule".toList, x, l, "Equation0_szRight".toList] = some (.str t) ∧ Writes t cap) ∧
      ∀ q, (∀ x, (labelled template "CC1".toList).head? = some x ∨ (labelled template "CC2".toList).head? = some x →
          Apart ["Schedule".toList, x, "m_szCtrlValue".toList] q) →
        (∀ x ∈ labelled template "CC1".toList, ∀ l, IsLimit template x l →
          Stops template "PV_CHAN_Charge_Capacity".toList x l →
          Apart ["Schedule".toList, x, l, "Equation0_szCompareSign".toList] q ∧
          Apart ["Schedule".toList, x, l, "Equation0_szRight".toList] q) →
        getP made q = getP template q := by
  have hk : Keeps template s.keys := ⟨hd, s, hs, rfl⟩
  -- the first current
  obtain ⟨o1, e1, t1, f1⟩ := C60_steps_partial template s "CC1".toList "m_szCtrlValue".toList (.str (amount cc1)) true hd hs
  have hk1 : Keeps o1 s.keys := keeps_labelledSteps hk e1
  have g1 : ∀ (x l : Str) (q : List Str), "m_szCtrlValue".toList ≠ l →
      getP o1 (kSchedule :: x :: l :: q) = getP template (kSchedule :: x :: l :: q) := by
    intro x l q hl
    apply f1
    intro t ht
    obtain ⟨y, _, rfl⟩ := List.mem_map.mp ht
    exact apart_field y x _ l [] q hl
  have l1 : ∀ label, labelled o1 label = labelled template label :=
    labelled_same hk hk1 (fun x => g1 x kLabel [] (by decide))
  have lim1 : ∀ x l, IsLimit o1 x l ↔ IsLimit template x l := by
    intro x l
    unfold IsLimit
    constructor
    · rintro ⟨h, d, hd⟩; exact ⟨h, d, (g1 x l [] (limit_ne h)) ▸ hd⟩
    · rintro ⟨h, d, hd⟩; exact ⟨h, d, (g1 x l [] (limit_ne h)).trans hd⟩
  have stop1 : ∀ x l, "Limit".toList <+: l → ∀ var, (Stops o1 var x l ↔ Stops template var x l) := by
    intro x l h var
    unfold Stops
    rw [show "Schedule".toList = kSchedule from rfl, g1 x l _ (limit_ne h), g1 x l _ (limit_ne h)]
  obtain ⟨hd1, s1, hs1, hs1k⟩ := hk1
  have hk1 : Keeps o1 s.keys := ⟨hd1, s1, hs1, hs1k⟩
  -- the capacity
  obtain ⟨o2, e2, t2, f2⟩ := C60_limits o1 s1 "CC1".toList "PV_CHAN_Charge_Capacity".toList (.str ['>'])
    (.str (amount cap)) hd1 hs1 (by
      intro x hx l hl
      rw [l1] at hx
      have hl' := (lim1 x l).mp hl
      have hp := limit_ne hl'.1
      obtain ⟨a, b, c⟩ := hc x hx l hl'
      rw [show "Schedule".toList = kSchedule from rfl] at a b c ⊢
      rw [g1 x l _ hp, g1 x l _ hp]
      refine ⟨a, b, fun k d => ?_⟩
      rw [g1 x l _ hp]
      exact c k d)
  have hk2 : Keeps o2 s.keys := keeps_labelledLimits hk1 e2
  have g2 : ∀ (x k : Str) (q : List Str), ¬ "Limit".toList <+: k →
      getP o2 (kSchedule :: x :: k :: q) = getP o1 (kSchedule :: x :: k :: q) := by
    intro x k q hkk
    apply f2
    intro y _ l hl _
    have hne : l ≠ k := by rintro rfl; exact hkk hl.1
    exact ⟨apart_field y x l k _ q hne, apart_field y x l k _ q hne⟩
  have l2 : ∀ label, labelled o2 label = labelled template label := by
    intro label
    rw [labelled_same hk1 hk2 (fun x => g2 x kLabel [] (by decide)) label, l1]
  obtain ⟨hd2, s2, hs2, hs2k⟩ := hk2
  -- the second current
  obtain ⟨o3, e3, t3, f3⟩ := C60_steps_partial o2 s2 "CC2".toList "m_szCtrlValue".toList (.str (amount cc2)) true hd2 hs2
  simp only [if_true, l2] at t3 f3
  simp only [if_true] at t1 f1
  have headTake : ∀ (l : List Str) (x : Str), l.head? = some x → x ∈ l.take 1 := by
    intro l x h
    cases l with
    | nil => cases h
    | cons a l => cases h; simp
  have takeHead : ∀ (l : List Str) (x : Str), x ∈ l.take 1 → l.head? = some x := by
    intro l x h
    cases l with
    | nil => simp at h
    | cons a l => simp at h; simp [h]
  have lab : ∀ x label, x ∈ labelled template label → getP template [kSchedule, x, kLabel] = some (.str label) := by
    intro x label hx
    rw [labelled_keeps hk, List.mem_filter] at hx
    simpa using hx.2
  refine ⟨o3, ?_, ?_, ?_, ?_, ?_⟩
  · unfold fromFastCharge
    rw [e1]
    simp only [bind, Except.bind]
    rw [e2]
    exact e3
  · intro x hx
    refine ⟨amount cc1, ?_, amount_writes cc1⟩
    have a := t1 (["Schedule".toList, x, "m_szCtrlValue".toList], .str (amount cc1))
      (List.mem_map.mpr ⟨x, headTake _ x hx, rfl⟩)
    simp only at a
    rw [f3, ← a]
    · exact g2 x "m_szCtrlValue".toList [] (by decide)
    · intro t ht
      obtain ⟨y, hy, rfl⟩ := List.mem_map.mp ht
      have h1 := lab x _ (List.mem_of_mem_head? (by rw [hx]; rfl))
      have h2 := lab y _ (List.mem_of_mem_take hy)
      have hne : y ≠ x := by
        rintro rfl
        rw [h1] at h2
        exact absurd h2 (by decide)
      exact apart_step y x _ _ hne
  · intro x hx
    exact ⟨amount cc2, t3 (["Schedule".toList, x, "m_szCtrlValue".toList], .str (amount cc2))
      (List.mem_map.mpr ⟨x, headTake _ x hx, rfl⟩), amount_writes cc2⟩
  · intro x hx l hl hst
    obtain ⟨a, b⟩ := t2 x (by rw [l1]; exact hx) l ((lim1 x l).mpr hl) ((stop1 x l hl.1 _).mpr hst)
    have g3 : ∀ q, getP o3 (kSchedule :: x :: l :: q) = getP o2 (kSchedule :: x :: l :: q) := by
      intro q
      apply f3
      intro t ht
      obtain ⟨y, _, rfl⟩ := List.mem_map.mp ht
      exact apart_field y x _ l [] q (limit_ne hl.1)
    exact ⟨(g3 _).trans a, amount cap, (g3 _).trans b, amount_writes cap⟩
  · intro q hq1 hq2
    rw [f3, f2, f1]
    · intro t ht
      obtain ⟨y, hy, rfl⟩ := List.mem_map.mp ht
      exact hq1 y (.inl (takeHead _ _ hy))
    · intro x hx l hl hst
      rw [l1] at hx
      have hl' := (lim1 x l).mp hl
      exact hq2 x hx l hl' ((stop1 x l hl'.1 _).mp hst)
    · intro t ht
      obtain ⟨y, hy, rfl⟩ := List.mem_map.mp ht
      exact hq1 y (.inr (takeHead _ _ hy))

/-- C123, the numbers: a parameter that is a whole number of thousandths is written exactly. -/
theorem C123_exact (t : Str) (k : Int) (h : Writes t (k / 1000)) : Denotes t (k / 1000) := by
  obtain ⟨y, hy, ⟨j, rfl⟩, hn⟩ := h
  have h2 := abs_le.mp hn
  have e1 : ((j - k : Int) : Rat) ≤ 1 / 2 := by push_cast; linarith [h2.2]
  have e2 : (-1 / 2 : Rat) ≤ ((j - k : Int) : Rat) := by push_cast; linarith [h2.1]
  have e3 : j - k < 1 := by
    have : ((j - k : Int) : Rat) < 1 := by linarith
    exact_mod_cast this
  have e4 : -1 < j - k := by
    have : (-1 : Rat) < ((j - k : Int) : Rat) := by linarith
    exact_mod_cast this
  have : j = k := by omega
  rw [← this]
  exact hy

/-- C123 fails for a template without the labels: the template itself is returned as the schedule
of the run, without an error and without any of the parameters. -/
theorem C123_missing_violated (template s : Obj) (cc1 cap cc2 : Rat) (hd : Distinct template)
    (hs : template.find "Schedule".toList = some (.obj s))
    (h1 : labelled template "CC1".toList = []) (h2 : labelled template "CC2".toList = []) :
    fromFastCharge template cc1 cap cc2 = .ok template := by
  have hk : Keeps template s.keys := ⟨hd, s, hs, rfl⟩
  unfold fromFastCharge
  rw [C60_missing_violated template s _ _ _ true hd hs h1]
  simp only [bind, Except.bind]
  have : setLabelledLimits template "CC1".toList "PV_CHAN_Charge_Capacity".toList (.str ['>']) (.str (amount cap)) =
      .ok template := by
    unfold setLabelledLimits
    rw [stepKeys_keeps hk]
    simp only [bind, Except.bind]
    rw [labelled_keeps hk, List.filter_eq_nil_iff] at h1
    generalize s.keys = ks at h1
    induction ks with
    | nil => rfl
    | cons x ks ih =>
      rw [setLimitSteps, if_neg]
      · exact ih (fun a ha => h1 a (List.mem_cons_of_mem _ ha))
      · rw [hasLabel_iff]
        simpa using h1 x (List.mem_cons_self ..)
  rw [this]
  exact C60_missing_violated template s _ _ _ true hd hs h2

/-- a capacity limit -/
def exLimit0 : Obj := .leaf kStepLimit ['1'] (.leaf kLeft "PV_CHAN_Charge_Capacity".toList
  (.leaf kSign ['<'] (.leaf kRight ['4'] .nil)))

/-- a time limit -/
def exLimit1 : Obj := .leaf kStepLimit ['1'] (.leaf kLeft "PV_CHAN_Step_Time".toList .nil)

/-- a step CC1 with both limits -/
def exStep0 : Obj := .leaf kLabel "CC1".toList (.leaf "m_szCtrlValue".toList ['1']
  (.node "Limit0".toList exLimit0 (.node "Limit1".toList exLimit1 .nil)))

/-- a template with the step CC1 and a step CC2 -/
def exTemplate : Obj :=
  .node kSchedule (.node "Step0".toList exStep0 (.node "Step1".toList (.leaf kLabel "CC2".toList .nil) .nil)) .nil

example : (fromFastCharge exTemplate (44 / 10) (1 / 3) 10).toOption.map (fun o =>
      [getP o [kSchedule, "Step0".toList, "m_szCtrlValue".toList], getP o [kSchedule, "Step0".toList, "Limit0".toList, kSign],
       getP o [kSchedule, "Step0".toList, "Limit0".toList, kRight], getP o [kSchedule, "Step1".toList, "m_szCtrlValue".toList]]) =
    some [some (.str "4.4".toList), some (.str ['>']), some (.str "0.333".toList), some (.str "10.".toList)] ∧
    labelled exTemplate "CC1".toList = ["Step0".toList] ∧ labelled exTemplate "CC2".toList = ["Step1".toList] := by
  decide +kernel

/-- the template meets the hypotheses of the theorem -/
example : Distinct exTemplate ∧ (∀ x ∈ labelled exTemplate "CC1".toList, ∀ l, IsLimit exTemplate x l →
      (∃ v, getP exTemplate ["Schedule".toList, x, l, "m_bStepLimit".toList] = some v) ∧
      (∃ v, getP exTemplate ["Schedule".toList, x, l, "Equation0_szLeft".toList] = some v) ∧
      ∀ k d, getP exTemplate ["Schedule".toList, x, l, k] ≠ some (.obj d)) := by
  refine ⟨by simp only [exTemplate, exStep0, exLimit0, exLimit1, Distinct]; decide +kernel, ?_⟩
  intro x hx l hl
  have hx' : x = "Step0".toList := by
    have : labelled exTemplate "CC1".toList = ["Step0".toList] := by decide +kernel
    rw [this] at hx
    simpa using hx
  subst hx'
  obtain ⟨hp, d, hd⟩ := hl
  have hcase : l = "Limit0".toList ∨ l = "Limit1".toList := by
    have e : exStep0.find l = some (.obj d) := hd
    unfold exStep0 at e
    rw [Obj.find] at e
    split at e
    · cases e
    rw [Obj.find] at e
    split at e
    · cases e
    rw [Obj.find] at e
    split at e
    · rename_i h; exact .inl h.symm
    rw [Obj.find] at e
    split at e
    · rename_i h; exact .inr h.symm
    · cases e
  have leaf : ∀ (k v : Str) (r : Obj), (∀ a b, r.find a ≠ some (.obj b)) → ∀ a b, (Obj.leaf k v r).find a ≠ some (.obj b) := by
    intro k v r h a b e
    rw [Obj.find] at e
    split at e
    · cases e
    · exact h a b e
  have nil : ∀ a b, Obj.nil.find a ≠ some (.obj b) := fun a b e => nomatch e
  rcases hcase with rfl | rfl
  · exact ⟨⟨_, rfl⟩, ⟨_, rfl⟩, fun k d h => leaf _ _ _ (leaf _ _ _ (leaf _ _ _ (leaf _ _ _ nil))) k d (show exLimit0.find k = _ from h)⟩
  · exact ⟨⟨_, rfl⟩, ⟨_, rfl⟩, fun k d h => leaf _ _ _ (leaf _ _ _ nil) k d (show exLimit1.find k = _ from h)⟩

end Beep.Props.FastCharge
