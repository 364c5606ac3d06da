import Verif.Proof.StepRoles
/-
C59: the roles of the steps of a diagnostic cycle.
-/
namespace Beep.Props.StepRoles
open Beep Pandas StepRoles Spec.StepRoles Proof.StepRoles

/-- the function that finds the role of a step -/
def roleOf (cycleType : Str) (cap : Rat) (cycle : List Row) (s : Int) : Except Err (Option Role) :=
  if cycleType = "hppc".toList then hppcRole cap cycle s else plainRole cap cycle s

theorem roleOf_iff (ty : Str) (cap : Rat) (cycle : List Row) (s : Int) (r : Role) :
    roleOf ty cap cycle s = .ok (some r) ↔ HasRole ty cap cycle s r := by
  unfold roleOf HasRole
  split
  · exact hppcRole_iff cap cycle s r
  · exact plainRole_spec cap cycle s r

theorem known_iff (ty : Str) : Known ty ↔ ty = "hppc".toList ∨ ty ∈ plainTypes := by
  unfold Known plainTypes; rw [List.mem_cons]

theorem getStepIndex_eq (cap : Rat) (data : List Row) (ty : Str) (pos : Int) (cycle : List Row)
    (hc : chosen data ty pos = some cycle) (hk : Known ty) :
    getStepIndex cap data ty pos = match annotate (roleOf ty cap cycle) (steps cycle) [] with
      | .error e => .error e
      | .ok d => if (steps cycle).length = d.length then .ok d else .error .assertionError := by
  unfold getStepIndex
  rw [hc]
  simp only
  by_cases h : ty = "hppc".toList
  · have : roleOf ty cap cycle = hppcRole cap cycle := by funext s; simp only [roleOf, if_pos h]
    rw [if_pos h, this]
    cases annotate (hppcRole cap cycle) (steps cycle) [] <;> rfl
  · have hp : ty ∈ plainTypes := ((known_iff ty).mp hk).resolve_left h
    have : roleOf ty cap cycle = plainRole cap cycle := by funext s; simp only [roleOf, if_neg h]
    rw [if_neg h, if_pos hp, this]
    cases annotate (plainRole cap cycle) (steps cycle) [] <;> rfl

/-- C59: when the call returns, every step of the cycle has exactly one role, no two steps share one,
every role that is returned belongs to a step of the cycle, and the step meets the description of its
role. -/
theorem C59_roles (cap : Rat) (data : List Row) (ty : Str) (pos : Int) (d : Dict Role Int)
    (h : getStepIndex cap data ty pos = .ok d) :
    ∃ cycle, IsChosen data ty pos cycle ∧
      (∀ s ∈ cycle.map Row.step, ∃ r, Dict.get? d r = some s ∧ ∀ r', Dict.get? d r' = some s → r' = r) ∧
      (∀ r s, Dict.get? d r = some s → s ∈ cycle.map Row.step ∧ HasRole ty cap cycle s r) := by
  cases hc : chosen data ty pos with
  | none => unfold getStepIndex at h; rw [hc] at h; cases h
  | some cycle =>
    have hk : Known ty := by
      rw [known_iff]
      by_contra hn
      push Not at hn
      unfold getStepIndex at h
      rw [hc] at h
      simp only [if_neg hn.1, if_neg hn.2] at h
      cases h
    rw [getStepIndex_eq cap data ty pos cycle hc hk] at h
    split at h
    · cases h
    rename_i d' hd
    split at h
    · rename_i hl
      injection h with h; subst h
      obtain ⟨_, h2, h3⟩ := annotate_ok _ _ _ _ hd
      obtain ⟨h4, _⟩ := h3 (by simpa using hl.symm)
      have h2' : ∀ r s, Dict.get? d' r = some s → s ∈ steps cycle ∧ roleOf ty cap cycle s = .ok (some r) := by
        intro r s hrs
        rcases h2 r s hrs with h | h
        · cases h
        · exact h
      refine ⟨cycle, (chosen_iff ..).mp hc, ?_, ?_⟩
      · intro s hs
        obtain ⟨r, hr1, hr2⟩ := h4 s (mem_unique.mpr hs)
        refine ⟨r, hr2, ?_⟩
        intro r' hr'
        have := (h2' r' s hr').2
        rw [hr1] at this
        injection this with this; injection this with this; exact this.symm
      · intro r s hrs
        obtain ⟨a, b⟩ := h2' r s hrs
        exact ⟨mem_unique.mp a, (roleOf_iff ty cap cycle s r).mp b⟩
    · cases h

/-- C59: it returns exactly when this is possible: the cycle exists, its type is known, every step has a
role, and no other step has the same role.  Otherwise it raises. -/
theorem C59_raises (cap : Rat) (data : List Row) (ty : Str) (pos : Int) :
    (∃ d, getStepIndex cap data ty pos = .ok d) ↔
      Known ty ∧ ∃ cycle, IsChosen data ty pos cycle ∧
        ∀ s ∈ cycle.map Row.step, ∃ r, HasRole ty cap cycle s r ∧
          ∀ s' ∈ cycle.map Row.step, s' ≠ s → ¬ HasRole ty cap cycle s' r := by
  constructor
  · rintro ⟨d, h⟩
    have hk : Known ty := by
      rw [known_iff]
      by_contra hn
      push Not at hn
      unfold getStepIndex at h
      split at h
      · cases h
      simp only [if_neg hn.1, if_neg hn.2] at h
      cases h
    obtain ⟨cycle, hc, h1, h2⟩ := C59_roles cap data ty pos d h
    refine ⟨hk, cycle, hc, ?_⟩
    intro s hs
    obtain ⟨r, hr, _⟩ := h1 s hs
    refine ⟨r, (h2 r s hr).2, ?_⟩
    intro s' hs' hne hrole
    obtain ⟨q, hq, _⟩ := h1 s' hs'
    have hq2 := (h2 q s' hq).2
    have e1 := (roleOf_iff ty cap cycle s' r).mpr hrole
    rw [(roleOf_iff ty cap cycle s' q).mpr hq2] at e1
    injection e1 with e1; injection e1 with e1
    subst e1
    rw [hr] at hq
    injection hq with hq
    exact hne hq.symm
  · rintro ⟨hk, cycle, hc, h⟩
    have hc := (chosen_iff ..).mpr hc
    obtain ⟨d, hd, hl⟩ := annotate_all (roleOf ty cap cycle) (steps cycle) [] (nodup_unique _) (by
      intro s hs
      obtain ⟨r, h1, h2⟩ := h s (mem_unique.mp hs)
      refine ⟨r, (roleOf_iff ty cap cycle s r).mpr h1, by simp [Dict.keys], ?_⟩
      intro s' hs' hne he
      exact h2 s' (mem_unique.mp hs') hne ((roleOf_iff ty cap cycle s' r).mp he))
    refine ⟨d, ?_⟩
    rw [getStepIndex_eq cap data ty pos cycle hc hk, hd]
    simp only
    rw [if_pos (by simpa using hl.symm)]

/-! ### Concrete cases -/

/-- an hppc cycle of a 2 Ah cell: charge, long rest, two pulses with a short rest between them, discharge
to the next state of charge (twice), final discharge -/
def demo : List Row :=
  let row (s k : Int) (i t : Rat) : Row := ⟨"hppc".toList, 5, s, k, some i, t⟩
  [row 1 1 1 0, row 1 1 1 3600, row 2 2 0 3600, row 2 2 0 7200, row 3 3 (-2) 7200, row 3 3 (-2) 7210,
   row 4 4 0 7210, row 4 4 0 7250, row 5 5 2 7250, row 5 5 2 7260, row 6 6 (-1) 7260, row 6 6 (-1) 8260,
   row 6 9 (-1) 8300, row 6 9 (-1) 9300, row 7 10 (-1) 9300, row 7 10 (-1) 9900]

example : getStepIndex 2 demo "hppc".toList 0 = .ok [(.chargeToSoc, 1), (.longRest, 2), (.dischargePulse, 3),
    (.shortRest, 4), (.chargePulse, 5), (.dischargeToNextSoc, 6), (.finalDischarge, 7)] := by decide +kernel

/-- with a second charge step two steps would share a role -/
example : getStepIndex 2 (demo ++ [⟨"hppc".toList, 5, 8, 11, some 1, 9900⟩, ⟨"hppc".toList, 5, 8, 11, some 1, 9999⟩])
    "hppc".toList 0 = .error .assertionError := by decide +kernel

/-- a step without current in a capacity check -/
example : getStepIndex 2 [⟨"reset".toList, 0, 1, 1, some 1, 0⟩, ⟨"reset".toList, 0, 2, 2, some (-1), 10⟩]
    "reset".toList 0 = .ok [(.charge, 1), (.discharge, 2)] ∧
    getStepIndex 2 [⟨"reset".toList, 0, 1, 1, some 0, 0⟩] "reset".toList 0 = .error .valueError := by
  decide +kernel

end Beep.Props.StepRoles
