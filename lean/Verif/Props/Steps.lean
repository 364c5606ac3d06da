import Verif.Proof.Steps
import Verif.Spec.Steps
/-
Property theorems C09 and C10 about step classification.
-/
namespace Beep.Steps
open Beep.Pandas Beep.Spec.Steps

/-! ### C09: every step is charge or discharge -/

/-- the step with index `s` as a whole -/
def wholeStep (cycle : List Row) (s : Int) : List Row := cycle.filter (fun r => r.step = some s)

/-- C09 (partial: tables in which every row has a step index; rows with a NaN step index are
lost, see `C09_nan_step_violated`).  Charge steps and discharge steps together are a
rearrangement of the rows of the cycle, and every step is, as a whole, in exactly one of
the two. -/
theorem C09_partition_partial (b : Bool) (cycle : List Row) (hp : ∀ r ∈ cycle, r.step ≠ none) :
    ∃ cs ds, iterateSteps b "charge" cycle = .ok cs ∧ iterateSteps b "discharge" cycle = .ok ds ∧
      (cs.flatten ++ ds.flatten).Perm cycle ∧
      ∀ s, (∃ r ∈ cycle, r.step = some s) →
        (wholeStep cycle s ∈ cs ∧ ∀ g ∈ ds, ∀ r ∈ g, r.step ≠ some s) ∨
        (wholeStep cycle s ∈ ds ∧ ∀ g ∈ cs, ∀ r ∈ g, r.step ≠ some s) := by
  let C := filterGroups (stepIsChgState true b) cycle
  let D := filterGroups (stepIsChgState false b) cycle
  have hC : iterateSteps b "charge" cycle = .ok ((stepKeys C).map (stepRows cycle)) := by
    rw [← iterate_eq b true cycle]; rfl
  have hD : iterateSteps b "discharge" cycle = .ok ((stepKeys D).map (stepRows cycle)) := by
    rw [← iterate_eq b false cycle]; rfl
  refine ⟨_, _, hC, hD, ?_, ?_⟩
  · -- permutation
    let key : Row → Int := fun r => r.step.getD 0
    have hkey : ∀ r ∈ cycle, ∀ k, (r.step = some k ↔ key r = k) := by
      intro r hr k
      cases h : r.step with
      | none => exact absurd h (hp r hr)
      | some s => simp [key, h]
    have e : ∀ k, stepRows cycle k = cycle.filter (fun r => key r = k) := by
      intro k
      unfold stepRows
      apply List.filter_congr
      intro r hr
      simp only [hkey r hr k]
    have hcat : ((stepKeys C).map (stepRows cycle)).flatten ++ ((stepKeys D).map (stepRows cycle)).flatten =
        (stepKeys C ++ stepKeys D).flatMap (fun k => cycle.filter (fun r => key r = k)) := by
      have e' : stepRows cycle = fun k => cycle.filter (fun r => key r = k) := funext e
      rw [List.flatMap_append, List.flatMap_def, List.flatMap_def, e']
    rw [hcat]
    apply perm_groups
    · rw [List.nodup_append]
      refine ⟨nodup_groupKeys _, nodup_groupKeys _, ?_⟩
      intro x hx y hy exy
      subst exy
      have h1 := (mem_stepKeys_filterGroups.mp hx).2
      have h2 := (mem_stepKeys_filterGroups.mp hy).2
      rw [complement, h1] at h2
      simp at h2
    · intro r hr
      cases h : r.step with
      | none => exact absurd h (hp r hr)
      | some s =>
        have hk : key r = s := by simp [key, h]
        rw [hk, List.mem_append]
        by_cases hb : stepIsChgState true b (stepRows cycle s) = true
        · left; exact mem_stepKeys_filterGroups.mpr ⟨⟨r, hr, h⟩, hb⟩
        · right
          refine mem_stepKeys_filterGroups.mpr ⟨⟨r, hr, h⟩, ?_⟩
          rw [complement]; simp [hb]
  · intro s hs
    have key : ∀ chg, stepIsChgState chg b (stepRows cycle s) = true →
        wholeStep cycle s ∈ (stepKeys (filterGroups (stepIsChgState chg b) cycle)).map (stepRows cycle) := by
      intro chg hc
      rw [List.mem_map]
      exact ⟨s, mem_stepKeys_filterGroups.mpr ⟨hs, hc⟩, rfl⟩
    have no : ∀ chg, stepIsChgState chg b (stepRows cycle s) = false →
        ∀ g ∈ (stepKeys (filterGroups (stepIsChgState chg b) cycle)).map (stepRows cycle),
          ∀ r ∈ g, r.step ≠ some s := by
      intro chg hc g hg r hr hrs
      obtain ⟨k, hk, rfl⟩ := List.mem_map.mp hg
      have : r.step = some k := by
        have := (List.mem_filter.mp hr).2; simpa using this
      rw [hrs] at this; cases this
      have := (mem_stepKeys_filterGroups.mp hk).2
      rw [hc] at this; cases this
    by_cases hb : stepIsChgState true b (stepRows cycle s) = true
    · left
      refine ⟨key true hb, no false ?_⟩
      rw [complement, hb]; rfl
    · right
      have hb' : stepIsChgState true b (stepRows cycle s) = false := by simpa using hb
      refine ⟨key false ?_, no true hb'⟩
      rw [complement, hb']; rfl

/-- C09: steps come in ascending step index, and any other step type is refused. -/
theorem C09_order (b : Bool) (t : String) (cycle : List Row) :
    (t ≠ "charge" → t ≠ "discharge" → iterateSteps b t cycle = .error .valueError) ∧
    ∀ gs, iterateSteps b t cycle = .ok gs →
      ∃ ks : List Int, ks.Pairwise (· < ·) ∧ gs.length = ks.length ∧
        ∀ (i : Nat) (g : List Row), gs[i]? = some g → g ≠ [] ∧ ∃ k, ks[i]? = some k ∧ ∀ r ∈ g, r.step = some k := by
  constructor
  · intro h1 h2; simp [iterateSteps, h1, h2]
  · intro gs h
    unfold iterateSteps at h
    split at h
    · simp only [Except.ok.injEq] at h
      subst h
      refine ⟨_, sorted_groupKeys _, by rw [List.length_map]; rfl, ?_⟩
      intro i g hg
      rw [List.getElem?_map, Option.map_eq_some_iff] at hg
      obtain ⟨k, hk, rfl⟩ := hg
      have hmem : k ∈ stepKeys (filterGroups (stepIsChgState (t == "charge") b) cycle) :=
        List.mem_of_getElem? hk
      obtain ⟨r, hr, hs⟩ := mem_stepKeys.mp hmem
      constructor
      · exact List.ne_nil_of_mem (List.mem_filter.mpr ⟨hr, by simpa using hs⟩)
      · refine ⟨k, hk, ?_⟩
        intro r hr
        have := (List.mem_filter.mp hr).2
        simpa using this
    · cases h

/-- non-vacuity: step 1 charges, step 2 discharges, rows interleaved -/
def exCycle : List Row :=
  [mkRow 1 (some 1) (some 0) (some 0), mkRow 1 (some 2) (some 2) (some 0), mkRow 1 (some 1) (some 1) (some 0),
   mkRow 1 (some 2) (some 2) (some 1), mkRow 1 (some 1) (some 2) (some 0), mkRow 1 (some 2) (some 2) (some 2)]

example : (∀ r ∈ exCycle, r.step ≠ none) ∧
    iterateSteps true "charge" exCycle = .ok [wholeStep exCycle 1] ∧
    iterateSteps true "discharge" exCycle = .ok [wholeStep exCycle 2] := by decide +kernel

/-- C09 violated for rows without a step index: such a row is in neither selection. -/
theorem C09_nan_step_violated :
    ∃ cycle : List Row, cycle ≠ [] ∧ iterateSteps true "charge" cycle = .ok [] ∧
      iterateSteps true "discharge" cycle = .ok [] :=
  ⟨[mkRow 1 (none) (some 0) (some 0)], by decide, by decide +kernel, by decide +kernel⟩

/-! ### C10: pure charge and pure discharge -/

theorem rises_avg {vals : List (Option Rat)} {l : List Rat} {first last : Rat}
    (h : Rises vals l first last) (hj : NoJump l first last) :
    2 ≤ vals.length ∧ ∃ a, avgDelta vals = some a ∧ 0 < a ∧ a * ((vals.length : Rat) - 1) = last - first := by
  obtain ⟨h1, h2, h3, h4, h5⟩ := h
  cases l with
  | nil => simp at h3
  | cons p vs =>
    simp only [List.head?_cons, Option.some.injEq] at h3
    subst h3
    have hlast : lastFrom p vs = last := by
      have : ∀ (p : Rat) (vs : List Rat), (p :: vs).getLast? = some (lastFrom p vs) := by
        intro p vs
        induction vs generalizing p with
        | nil => rfl
        | cons v vs ih => rw [List.getLast?_cons_cons, ih]; rfl
      rw [this] at h4; simpa using h4
    have hne : vs ≠ [] := by
      rintro rfl
      simp only [lastFrom] at hlast
      rw [hlast] at h5; exact lt_irrefl _ h5
    have hinc : ∀ (p : Rat) (vs : List Rat), ∀ d ∈ incs p vs, ∃ (i : Nat) (x y : Rat),
        (p :: vs)[i]? = some x ∧ (p :: vs)[i + 1]? = some y ∧ d = y - x := by
      intro p vs
      induction vs generalizing p with
      | nil => simp [incs]
      | cons v vs ih =>
        intro d hd
        simp only [incs, List.mem_cons] at hd
        rcases hd with rfl | hd
        · exact ⟨0, p, v, by simp, by simp, rfl⟩
        · obtain ⟨i, x, y, e1, e2, e3⟩ := ih v d hd
          exact ⟨i + 1, x, y, by simpa using e1, by simpa using e2, e3⟩
    rw [h1]
    constructor
    · cases vs with
      | nil => exact absurd rfl hne
      | cons v vs => simp
    · refine ⟨_, avgDelta_mono h2 hne ?_, ?_⟩
      · intro d hd
        obtain ⟨i, x, y, e1, e2, rfl⟩ := hinc p vs d hd
        rw [hlast]; exact hj i x y e1 e2
      · rw [hlast]
        have : vs.length ≠ 0 := by simpa using hne
        have hp : (0 : Rat) < vs.length := by exact_mod_cast Nat.pos_of_ne_zero this
        refine ⟨div_pos (by linarith) hp, ?_⟩
        rw [List.length_map, List.length_cons]
        push_cast
        rw [add_sub_cancel_right, div_mul_cancel₀ _ (ne_of_gt hp)]

theorem flat_avg {vals : List (Option Rat)} (h : Flat vals) (hlen : 2 ≤ vals.length) :
    avgDelta vals = some 0 := by
  obtain ⟨p, hp⟩ := h
  have e : vals = (vals.map (fun _ => p)).map some := by
    rw [List.map_map]
    conv_lhs => rw [← List.map_id vals]
    apply List.map_congr_left
    intro v hv; exact hp v hv
  rw [e]
  apply avgDelta_flat p
  · intro v hv; obtain ⟨_, _, rfl⟩ := List.mem_map.mp hv; rfl
  · simpa using hlen

/-- C10 (partial: no increment above 99 % of the total rise).  A step whose charge capacity
rises while the discharge capacity stays flat is a charge step and not a discharge step. -/
theorem C10_charge_partial (b : Bool) (rows : List Row) (l : List Rat) (first last : Rat)
    (h : Rises (rows.map Row.charge) l first last) (hj : NoJump l first last)
    (hf : Flat (rows.map Row.discharge)) :
    stepIsChgState true b rows = true ∧ stepIsChgState false b rows = false := by
  obtain ⟨hlen, a, ha, hpos, -⟩ := rises_avg h hj
  have hd := flat_avg hf (by simpa using hlen)
  unfold stepIsChgState
  rw [ha, hd]
  simp [isCharging, hpos]

/-- C10 (partial: no increment above 99 % of the total rise).  The mirror image for
discharge. -/
theorem C10_discharge_partial (b : Bool) (rows : List Row) (l : List Rat) (first last : Rat)
    (h : Rises (rows.map Row.discharge) l first last) (hj : NoJump l first last)
    (hf : Flat (rows.map Row.charge)) :
    stepIsChgState false b rows = true ∧ stepIsChgState true b rows = false := by
  obtain ⟨hlen, a, ha, hpos, -⟩ := rises_avg h hj
  have hd := flat_avg hf (by simpa using hlen)
  unfold stepIsChgState
  rw [ha, hd]
  have h1 : ¬ (0 > a) := by simp only [gt_iff_lt, not_lt]; exact le_of_lt hpos
  simp [isCharging, hpos]

example : Rises ([mkRow 1 (some 1) (some 0) (some 5), mkRow 1 (some 1) (some 1) (some 5),
      mkRow 1 (some 1) (some 3) (some 5)].map Row.charge) [0, 1, 3] 0 3 ∧ NoJump [0, 1, 3] 0 3 := by
  refine ⟨⟨rfl, by simp, rfl, rfl, by norm_num⟩, ?_⟩
  intro i x y hx hy
  match i with
  | 0 => simp at hx hy; subst hx hy; norm_num
  | 1 => simp at hx hy; subst hx hy; norm_num
  | (n + 2) => simp at hy

/-- C10 (partial: no increment above 99 % of a total rise).  When both capacities rise, the one that
rises more decides, and the configured default when they rise alike. -/
theorem C10_both_partial (chg b : Bool) (rows : List Row) (lc ld : List Rat) (fc ec fd ed : Rat)
    (hc : Rises (rows.map Row.charge) lc fc ec) (hjc : NoJump lc fc ec)
    (hd : Rises (rows.map Row.discharge) ld fd ed) (hjd : NoJump ld fd ed) :
    (ed - fd < ec - fc → stepIsChgState chg b rows = (chg == true)) ∧
    (ec - fc < ed - fd → stepIsChgState chg b rows = (chg == false)) ∧
    (ec - fc = ed - fd → stepIsChgState chg b rows = (chg == b)) := by
  obtain ⟨hlen, x, hx, hxp, hxe⟩ := rises_avg hc hjc
  obtain ⟨-, y, hy, hyp, hye⟩ := rises_avg hd hjd
  rw [List.length_map] at hlen hxe hye
  have hn : (0 : Rat) < (rows.length : Rat) - 1 := by
    have : (2 : Rat) ≤ rows.length := by exact_mod_cast hlen
    linarith
  unfold stepIsChgState
  rw [hx, hy, ← hxe, ← hye]
  refine ⟨fun h => ?_, fun h => ?_, fun h => ?_⟩
  · have h1 : y < x := lt_of_mul_lt_mul_right h (le_of_lt hn)
    simp only [isCharging, gt_iff_lt, if_pos (And.intro h1 hxp)]
  · have h1 : x < y := lt_of_mul_lt_mul_right h (le_of_lt hn)
    simp only [isCharging, gt_iff_lt, if_neg (fun e : y < x ∧ 0 < x => absurd e.1 (not_lt.mpr (le_of_lt h1))),
      if_pos (And.intro h1 hyp)]
  · have h1 : x = y := mul_right_cancel₀ (ne_of_gt hn) h
    subst h1
    simp [isCharging]

/-- C10: a step in which neither capacity changes gets the configured default -/
theorem C10_rest (chg b : Bool) (rows : List Row) (hc : Flat (rows.map Row.charge))
    (hd : Flat (rows.map Row.discharge)) : stepIsChgState chg b rows = (chg == b) := by
  unfold stepIsChgState
  match rows with
  | [] => rfl
  | [r] =>
    have : ∀ v : Option Rat, avgDelta [v] = none := by
      intro v; unfold avgDelta; cases v <;> rfl
    rw [List.map_singleton, List.map_singleton, this, this]
    rfl
  | r :: q :: rows =>
    rw [flat_avg hc (by simp), flat_avg hd (by simp)]
    simp [isCharging]

example : stepIsChgState true true [mkRow 1 (some 1) (some 0) (some 0), mkRow 1 (some 1) (some 1) (some 1),
      mkRow 1 (some 1) (some 3) (some 2)] = true ∧
    stepIsChgState true false [mkRow 1 (some 1) (some 2) (some 5), mkRow 1 (some 1) (some 2) (some 5)] = false := by
  decide +kernel

/-- C10 violated: a charging step with two rows is classified as discharge. -/
theorem C10_two_row_charge_violated (b : Bool) :
    stepIsChgState true b [mkRow 1 (some 1) (some 0) (some 5), mkRow 1 (some 1) (some 1) (some 5)] = false ∧
    stepIsChgState false b [mkRow 1 (some 1) (some 0) (some 5), mkRow 1 (some 1) (some 1) (some 5)] = true := by
  cases b <;> decide +kernel

/-- C10 violated: a discharging step whose whole capacity appears in one row followed by
constant rows is classified as charge under the default setting. -/
theorem C10_jump_discharge_violated :
    stepIsChgState true true [mkRow 1 (some 1) (some 5) (some 0), mkRow 1 (some 1) (some 5) (some 1),
      mkRow 1 (some 1) (some 5) (some 1)] = true := by decide +kernel

theorem absent_avg {vals : List (Option Rat)} (h : ∀ v ∈ vals, v = none) : avgDelta vals = none := by
  have hd : ∀ (l : List (Option Rat)), (∀ v ∈ l, v = none) → ∀ v ∈ diff l, v = none := by
    have hf : ∀ (l : List (Option Rat)) (x : Option Rat), (∀ v ∈ l, v = none) →
        ∀ v ∈ diffFrom x l, v = none := by
      intro l
      induction l with
      | nil => intro x _ v hv; simp [diffFrom] at hv
      | cons a l ih =>
        intro x hl v hv
        have ha := hl a (by simp)
        subst ha
        rw [diffFrom] at hv
        rcases List.mem_cons.mp hv with e | e
        · rw [e]; cases x <;> rfl
        · exact ih none (fun v hv => hl v (by simp [hv])) v e
    intro l hl
    cases l with
    | nil => intro v hv; simp [diff] at hv
    | cons a l =>
      intro v hv
      rcases List.mem_cons.mp hv with e | e
      · exact e
      · exact hf l a (fun v hv => hl v (by simp [hv])) v e
  unfold avgDelta
  have hm : ∀ l : List (Option Rat), (∀ v ∈ l, v = none) → meanN l = none := by
    intro l hl
    have : countN l = 0 := by
      induction l with
      | nil => rfl
      | cons a l ih =>
        have ha := hl a (by simp)
        subst ha
        have := ih (fun v hv => hl v (by simp [hv]))
        simp only [countN] at this ⊢
        simpa using this
    unfold meanN
    simp [this]
  apply hm
  intro v hv
  rw [List.mem_map] at hv
  obtain ⟨d, hd', rfl⟩ := hv
  rw [hd _ h d hd']
  cases subN (maxN vals) (minN vals) <;> rfl

/-- C10, only the charge capacity was recorded: a step in which it rises is a charge -/
theorem C10_only_charge_partial (b : Bool) (rows : List Row) (l : List Rat) (first last : Rat)
    (h : Rises (rows.map Row.charge) l first last) (hj : NoJump l first last)
    (hf : ∀ r ∈ rows, r.discharge = none) :
    stepIsChgState true b rows = true ∧ stepIsChgState false b rows = false := by
  obtain ⟨-, a, ha, hpos, -⟩ := rises_avg h hj
  have hd : avgDelta (rows.map Row.discharge) = none := absent_avg (by
    intro v hv
    obtain ⟨r, hr, rfl⟩ := List.mem_map.mp hv
    exact hf r hr)
  unfold stepIsChgState
  rw [ha, hd]
  simp [isCharging, hpos]

/-- C10 violated: with a missing charge capacity column every step whose discharge capacity
rises steadily is classified as charge (the branch at base.py:1356-1357 is inverted). -/
theorem C10_missing_charge_violated (b : Bool) (rows : List Row) (l : List Rat) (first last : Rat)
    (h : Rises (rows.map Row.discharge) l first last) (hj : NoJump l first last)
    (hf : ∀ r ∈ rows, r.charge = none) :
    stepIsChgState true b rows = true ∧ stepIsChgState false b rows = false := by
  obtain ⟨-, a, ha, hpos, -⟩ := rises_avg h hj
  have hd : avgDelta (rows.map Row.charge) = none := absent_avg (by
    intro v hv
    obtain ⟨r, hr, rfl⟩ := List.mem_map.mp hv
    exact hf r hr)
  unfold stepIsChgState
  rw [ha, hd]
  simp [isCharging, hpos]

/-- C10 violated: with one column missing a rest is always a discharge, whatever the setting for
steps that cannot be determined -/
theorem C10_missing_rest_violated (b : Bool) (rows : List Row) (hlen : 2 ≤ rows.length)
    (hf : Flat (rows.map Row.charge) ∧ (∀ r ∈ rows, r.discharge = none) ∨
      Flat (rows.map Row.discharge) ∧ ∀ r ∈ rows, r.charge = none) :
    stepIsChgState false b rows = true ∧ stepIsChgState true b rows = false := by
  have habs : ∀ c : Row → Option Rat, (∀ r ∈ rows, c r = none) → avgDelta (rows.map c) = none := by
    intro c hc
    apply absent_avg
    intro v hv
    obtain ⟨r, hr, rfl⟩ := List.mem_map.mp hv
    exact hc r hr
  unfold stepIsChgState
  rcases hf with ⟨h1, h2⟩ | ⟨h1, h2⟩
  · rw [flat_avg h1 (by simpa using hlen), habs _ h2]
    simp [isCharging]
  · rw [flat_avg h1 (by simpa using hlen), habs _ h2]
    simp [isCharging]

/-- a discharge without a charge capacity column -/
example (b : Bool) : stepIsChgState true b [mkRow 1 (some 1) (none) (some 0), mkRow 1 (some 1) (none) (some 1),
      mkRow 1 (some 1) (none) (some 2)] = true := by
  cases b <;> decide +kernel

example : Rises ([mkRow 1 (some 1) (none) (some 0), mkRow 1 (some 1) (none) (some 1),
      mkRow 1 (some 1) (none) (some 2)].map Row.discharge) [0, 1, 2] 0 2 :=
  ⟨rfl, by decide +kernel, rfl, rfl, by decide +kernel⟩

end Beep.Steps
