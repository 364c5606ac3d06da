import Verif.Proof.Summary
import Verif.Proof.Stats
/-
C13-C17, C62, C63: the cycle summary and the quantities derived from it.
-/
namespace Beep.Props.Summary
open Beep Beep.Pandas Beep.Summary Beep.Spec.Summary

/-- the result is the table or the table without its last row -/
theorem summarize_prefix {p : Params} {diag : Option (List Int)} {raw : List Raw} {s : List Row}
    (h : summarize p diag raw = .ok s) : s = table p diag raw ∨ s = (table p diag raw).dropLast := by
  unfold summarize at h
  simp only at h
  split at h
  · cases h; exact .inl rfl
  split at h
  · rename_i hl
    rw [List.getLast?_eq_none_iff] at hl
    split at h
    · cases h
    · cases h; left; rw [hl]
  · split at h <;> cases h
    · exact .inl rfl
    · exact .inr rfl

theorem summarize_get {p : Params} {diag : Option (List Int)} {raw : List Raw} {s : List Row}
    (h : summarize p diag raw = .ok s) (k : Nat) (r : Row) (hr : s[k]? = some r) :
    (table p diag raw)[k]? = some r ∧ s.take (k + 1) = (table p diag raw).take (k + 1) := by
  rcases summarize_prefix h with e | e
  · subst e; exact ⟨hr, rfl⟩
  · subst e
    have hk : k < (table p diag raw).dropLast.length := (List.getElem?_eq_some_iff.mp hr).1
    rw [List.length_dropLast] at hk
    rw [List.dropLast_eq_take] at hr ⊢
    rw [List.getElem?_take_of_lt hk] at hr
    exact ⟨hr, by rw [List.take_take, Nat.min_eq_left (by omega)]⟩

/-! ### C13 -/

/-- C13: the throughput of row `k` is the sum of the per-cycle quantity over the first
`k + 1` rows (missing quantities contribute nothing and have no throughput). -/
theorem C13_running_sum (p : Params) (diag : Option (List Int)) (raw : List Raw) (s : List Row)
    (h : summarize p diag raw = .ok s) (k : Nat) (r : Row) (hr : s[k]? = some r) :
    r.chgThroughput = r.chgCap.map (fun _ => ((s.take (k + 1)).filterMap Row.chgCap).sum) ∧
    r.enThroughput = r.chgEn.map (fun _ => ((s.take (k + 1)).filterMap Row.chgEn).sum) := by
  obtain ⟨h1, h2⟩ := summarize_get h k r hr
  obtain ⟨c, _, _, _, _, _, _, _, _, _, h3, h4⟩ := table_get p diag raw k r h1
  rw [h2]
  exact ⟨h3, h4⟩

/-- C13: throughputs never decrease when the per-cycle capacities are non-negative. -/
theorem C13_monotone (p : Params) (diag : Option (List Int)) (raw : List Raw) (s : List Row)
    (h : summarize p diag raw = .ok s) (hpos : ∀ r ∈ s, ∀ v, r.chgCap = some v → 0 ≤ v)
    (i j : Nat) (hij : i ≤ j) (a b : Row) (ha : s[i]? = some a) (hb : s[j]? = some b)
    (ta tb : Rat) (hta : a.chgThroughput = some ta) (htb : b.chgThroughput = some tb) : ta ≤ tb := by
  have h1 := (C13_running_sum p diag raw s h i a ha).1
  have h2 := (C13_running_sum p diag raw s h j b hb).1
  rw [hta] at h1; rw [htb] at h2
  cases hca : a.chgCap with
  | none => rw [hca] at h1; cases h1
  | some x =>
  cases hcb : b.chgCap with
  | none => rw [hcb] at h2; cases h2
  | some y =>
  rw [hca] at h1; rw [hcb] at h2
  simp only [Option.map_some, Option.some.injEq] at h1 h2
  have e : s.take (j + 1) = s.take (i + 1) ++ (s.take (j + 1)).drop (i + 1) := by
    conv_lhs => rw [← List.take_append_drop (i + 1) (s.take (j + 1))]
    rw [List.take_take, Nat.min_eq_left (by omega)]
  rw [h1, h2, e, List.filterMap_append, List.sum_append]
  have : 0 ≤ (((s.take (j + 1)).drop (i + 1)).filterMap Row.chgCap).sum := by
    apply sum_nonneg
    intro v hv
    rw [List.mem_filterMap] at hv
    obtain ⟨r, hr, hv⟩ := hv
    exact hpos r (List.mem_of_mem_take (List.mem_of_mem_drop hr)) v hv
  linarith

/-- the same for the energy throughput -/
theorem C13_monotone_energy (p : Params) (diag : Option (List Int)) (raw : List Raw) (s : List Row)
    (h : summarize p diag raw = .ok s) (hpos : ∀ r ∈ s, ∀ v, r.chgEn = some v → 0 ≤ v)
    (i j : Nat) (hij : i ≤ j) (a b : Row) (ha : s[i]? = some a) (hb : s[j]? = some b)
    (ta tb : Rat) (hta : a.enThroughput = some ta) (htb : b.enThroughput = some tb) : ta ≤ tb := by
  have h1 := (C13_running_sum p diag raw s h i a ha).2
  have h2 := (C13_running_sum p diag raw s h j b hb).2
  rw [hta] at h1; rw [htb] at h2
  cases hca : a.chgEn with
  | none => rw [hca] at h1; cases h1
  | some x =>
  cases hcb : b.chgEn with
  | none => rw [hcb] at h2; cases h2
  | some y =>
  rw [hca] at h1; rw [hcb] at h2
  simp only [Option.map_some, Option.some.injEq] at h1 h2
  have e : s.take (j + 1) = s.take (i + 1) ++ (s.take (j + 1)).drop (i + 1) := by
    conv_lhs => rw [← List.take_append_drop (i + 1) (s.take (j + 1))]
    rw [List.take_take, Nat.min_eq_left (by omega)]
  rw [h1, h2, e, List.filterMap_append, List.sum_append]
  have : 0 ≤ (((s.take (j + 1)).drop (i + 1)).filterMap Row.chgEn).sum := by
    apply sum_nonneg
    intro v hv
    rw [List.mem_filterMap] at hv
    obtain ⟨r, hr, hv⟩ := hv
    exact hpos r (List.mem_of_mem_take (List.mem_of_mem_drop hr)) v hv
  linarith

/-- C13: the difference of consecutive throughputs is the per-cycle quantity. -/
theorem C13_difference (p : Params) (diag : Option (List Int)) (raw : List Raw) (s : List Row)
    (h : summarize p diag raw = .ok s) (k : Nat) (a b : Row) (ha : s[k]? = some a)
    (hb : s[k + 1]? = some b) (ta tb : Rat) (hta : a.chgThroughput = some ta)
    (htb : b.chgThroughput = some tb) : b.chgCap = some (tb - ta) := by
  have h1 := (C13_running_sum p diag raw s h k a ha).1
  have h2 := (C13_running_sum p diag raw s h (k + 1) b hb).1
  rw [hta] at h1; rw [htb] at h2
  cases hca : a.chgCap with
  | none => rw [hca] at h1; cases h1
  | some x =>
  cases hcb : b.chgCap with
  | none => rw [hcb] at h2; cases h2
  | some y =>
  rw [hca] at h1; rw [hcb] at h2
  simp only [Option.map_some, Option.some.injEq] at h1 h2
  have e : s.take (k + 1 + 1) = s.take (k + 1) ++ [b] := by
    rw [List.take_add_one, hb]; rfl
  rw [e, List.filterMap_append, List.sum_append] at h2
  simp only [List.filterMap_cons, hcb, List.filterMap_nil, List.sum_cons, List.sum_nil] at h2
  rw [h1, h2]
  congr 1
  ring

/-- the same for the energy throughput -/
theorem C13_difference_energy (p : Params) (diag : Option (List Int)) (raw : List Raw) (s : List Row)
    (h : summarize p diag raw = .ok s) (k : Nat) (a b : Row) (ha : s[k]? = some a)
    (hb : s[k + 1]? = some b) (ta tb : Rat) (hta : a.enThroughput = some ta)
    (htb : b.enThroughput = some tb) : b.chgEn = some (tb - ta) := by
  have h1 := (C13_running_sum p diag raw s h k a ha).2
  have h2 := (C13_running_sum p diag raw s h (k + 1) b hb).2
  rw [hta] at h1; rw [htb] at h2
  cases hca : a.chgEn with
  | none => rw [hca] at h1; cases h1
  | some x =>
  cases hcb : b.chgEn with
  | none => rw [hcb] at h2; cases h2
  | some y =>
  rw [hca] at h1; rw [hcb] at h2
  simp only [Option.map_some, Option.some.injEq] at h1 h2
  have e : s.take (k + 1 + 1) = s.take (k + 1) ++ [b] := by
    rw [List.take_add_one, hb]; rfl
  rw [e, List.filterMap_append, List.sum_append] at h2
  simp only [List.filterMap_cons, hcb, List.filterMap_nil, List.sum_cons, List.sum_nil] at h2
  rw [h1, h2]
  congr 1
  ring

/-! ### C62: the per-cycle values -/

/-- C62: a summary row labelled `c` reports the largest charge and discharge capacity
recorded in cycle `c` (missing if the cycle has none). -/
theorem C62_capacities (p : Params) (diag : Option (List Int)) (raw : List Raw) (s : List Row)
    (h : summarize p diag raw = .ok s) (r : Row) (hr : r ∈ s) :
    r.label = r.cycle ∧
    (∀ v, r.chgCap = some v ↔ IsMax ((rowsOf raw r.cycle).map Raw.chgCap) v) ∧
    (∀ v, r.dchgCap = some v ↔ IsMax ((rowsOf raw r.cycle).map Raw.dchgCap) v) := by
  obtain ⟨k, hk⟩ := List.mem_iff_getElem?.mp hr
  obtain ⟨h1, _⟩ := summarize_get h k r hk
  obtain ⟨c, _, e1, e2, e3, e4, _⟩ := table_get p diag raw k r h1
  rw [e1, e2, e3, e4]
  exact ⟨rfl, fun v => isMax_iff, fun v => isMax_iff⟩

/-- C62: energies are per-cycle maxima too, except that a maximum whose magnitude exceeds
the error threshold is reported as missing; the energy efficiency is the ratio of the
unfiltered maxima and is missing when the charge energy is zero. -/
theorem C62_energies (p : Params) (diag : Option (List Int)) (raw : List Raw) (s : List Row)
    (h : summarize p diag raw = .ok s) (r : Row) (hr : r ∈ s) (d c : Rat)
    (hd : IsMax ((rowsOf raw r.cycle).map Raw.dchgEn) d)
    (hc : IsMax ((rowsOf raw r.cycle).map Raw.chgEn) c) :
    (r.dchgEn = if -p.errorThreshold ≤ d ∧ d ≤ p.errorThreshold then some d else none) ∧
    (r.chgEn = if -p.errorThreshold ≤ c ∧ c ≤ p.errorThreshold then some c else none) ∧
    (r.efficiency = if c = 0 then none else some (d / c)) := by
  have key : ∀ v : Rat, errorFilter p.errorThreshold (some v) =
      if -p.errorThreshold ≤ v ∧ v ≤ p.errorThreshold then some v else none := by
    intro v
    simp only [errorFilter, absR]
    split_ifs <;> first | rfl | (exfalso; grind)
  obtain ⟨k, hk⟩ := List.mem_iff_getElem?.mp hr
  obtain ⟨h1, _⟩ := summarize_get h k r hk
  obtain ⟨cc, _, e1, e2, _, _, e5, e6, e7, _⟩ := table_get p diag raw k r h1
  rw [e2] at hd hc
  have f1 := isMax_iff.mpr hd
  have f2 := isMax_iff.mpr hc
  unfold rowsOf at f1 f2
  unfold cycleRows at e5 e6 e7
  rw [e5, e6, e7, f1, f2, key, key]
  exact ⟨rfl, rfl, rfl⟩

/-- C62 fails for erroneous energies: whenever the largest discharge energy of a cycle lies
outside the error threshold, the row reports that energy as missing and still reports an
efficiency, computed from the value that was rejected. -/
theorem C62_efficiency_violated (p : Params) (diag : Option (List Int)) (raw : List Raw) (s : List Row)
    (h : summarize p diag raw = .ok s) (r : Row) (hr : r ∈ s) (d c : Rat)
    (hd : IsMax ((rowsOf raw r.cycle).map Raw.dchgEn) d)
    (hc : IsMax ((rowsOf raw r.cycle).map Raw.chgEn) c) (hc0 : c ≠ 0)
    (hbad : d < -p.errorThreshold ∨ p.errorThreshold < d) :
    r.dchgEn = none ∧ r.efficiency = some (d / c) := by
  obtain ⟨h1, _, h3⟩ := C62_energies p diag raw s h r hr d c hd hc
  rw [h1, h3, if_neg hc0]
  refine ⟨if_neg ?_, rfl⟩
  rintro ⟨a, b⟩
  rcases hbad with e | e
  · exact absurd a (not_le.mpr e)
  · exact absurd b (not_le.mpr e)

/-- a cycle with an absurd discharge energy: the energy is gone, the efficiency is not -/
example : (summarize {} none [⟨0, some 1, some 1, some 4, some 2000000, 0, some 3⟩,
      ⟨1, some 1, some 1, some 4, some 3, 1, some 3⟩]).map (List.map (fun r => (r.dchgEn, r.chgEn, r.efficiency))) =
    .ok [(none, some 4, some 500000)] := by decide +kernel

/-! ### C14 -/

/-- C14 (partial: runs whose cycles are numbered 0, 1, 2, … without gaps).  The charge
duration in the row of a cycle is that of the cycle. -/
theorem C14_duration_partial (p : Params) (diag : Option (List Int)) (raw : List Raw) (s : List Row)
    (h : summarize p diag raw = .ok s) (all : List Int) (hall : RegularCycles [] raw all)
    (hnum : ∀ (i : Nat) c, all[i]? = some c → c = (i : Int)) (r : Row) (hr : r ∈ s) :
    IsDuration p raw r.cycle r.duration := by
  have hcyc : cycles raw = all := by
    apply regular_unique (diag := []) (raw := raw) _ hall
    exact ⟨sorted_groupKeys _, fun c => by rw [mem_cycles]; simp⟩
  obtain ⟨k, hk⟩ := List.mem_iff_getElem?.mp hr
  obtain ⟨h1, _⟩ := summarize_get h k r hk
  obtain ⟨c, hc, _, e2, _, _, _, _, _, e8, _⟩ := table_get p diag raw k r h1
  have hmem : c ∈ cycles raw := by
    have := List.mem_of_getElem? hc
    unfold kept at this
    exact (List.mem_filter.mp this).1
  obtain ⟨i, hi⟩ := List.mem_iff_getElem?.mp hmem
  have hci := hnum i c (hcyc ▸ hi)
  rw [e2, e8]
  unfold durationFor
  rw [if_pos (by omega)]
  have : c.toNat = i := by omega
  rw [this]
  exact durationAt_spec p raw i c hi

/-- C14 fails for runs numbered from 1: the row of cycle `c` shows the duration of cycle
`c + 1` (and the last row shows none). -/
theorem C14_one_based_violated (p : Params) (diag : Option (List Int)) (raw : List Raw) (s : List Row)
    (h : summarize p diag raw = .ok s) (all : List Int) (hall : RegularCycles [] raw all)
    (hnum : ∀ (i : Nat) c, all[i]? = some c → c = (i : Int) + 1) (r : Row) (hr : r ∈ s) :
    (r.cycle + 1 ∈ all → IsDuration p raw (r.cycle + 1) r.duration) ∧
    (r.cycle + 1 ∉ all → r.duration = none) := by
  have hcyc : cycles raw = all := by
    apply regular_unique (diag := []) (raw := raw) _ hall
    exact ⟨sorted_groupKeys _, fun c => by rw [mem_cycles]; simp⟩
  obtain ⟨k, hk⟩ := List.mem_iff_getElem?.mp hr
  obtain ⟨h1, _⟩ := summarize_get h k r hk
  obtain ⟨c, hc, _, e2, _, _, _, _, _, e8, _⟩ := table_get p diag raw k r h1
  have hmem : c ∈ cycles raw := by
    have := List.mem_of_getElem? hc
    unfold kept at this
    exact (List.mem_filter.mp this).1
  obtain ⟨i, hi⟩ := List.mem_iff_getElem?.mp hmem
  have hci := hnum i c (hcyc ▸ hi)
  rw [e2, e8]
  unfold durationFor
  rw [if_pos (by omega)]
  constructor
  · intro hm
    obtain ⟨j, hj⟩ := List.mem_iff_getElem?.mp hm
    have hcj := hnum j _ hj
    have : c.toNat = j := by omega
    rw [this]
    exact durationAt_spec p raw j _ (hcyc ▸ hj)
  · intro hm
    unfold durationAt
    have : (cycles raw)[c.toNat]? = none := by
      cases hx : (cycles raw)[c.toNat]? with
      | none => rfl
      | some d =>
        have := hnum _ d (hcyc ▸ hx)
        have hd : d = c + 1 := by omega
        subst hd
        exact absurd (hcyc ▸ List.mem_of_getElem? hx) hm
    rw [this]

/-- a run with cycles 1 and 2, charged in 10 s and 50 s -/
def oneBased : List Raw :=
  [⟨1, some 0, some 0, some 0, some 0, 100, some 3⟩,
   ⟨1, some 1, some 1, some 1, some 1, 110, some 4⟩,
   ⟨2, some 0, some 0, some 0, some 0, 200, some 3⟩,
   ⟨2, some 1, some 1, some 1, some 1, 250, some 4⟩]

/-- … is reported with 50 s for cycle 1 and nothing for cycle 2 -/
theorem C14_witness_violated :
    (summarize {} none oneBased).map (List.map (fun r => (r.cycle, r.duration))) =
      .ok [(1, some 50), (2, none)] := by decide +kernel

/-- the same run numbered from 0 is reported correctly -/
example : (summarize {} none (oneBased.map (fun r => { r with cycle := r.cycle - 1 }))).map
    (List.map (fun r => (r.cycle, r.duration, r.chgThroughput))) =
      .ok [(0, some 10, some 1), (1, some 50, some 2)] := by decide +kernel

/-- C14 with the parameters left out: the charge is over at 0.88 Ah, 80 % of 1.1 Ah; C15 judges the last cycle by
3.3 V and 97 % -/
theorem C14_defaults : ({} : Params) =
    { nominal := 1.1, fullFast := 0.8, ratio := 0.97, vmin := 3.3, vmax := 3.3, errorThreshold := 1e6 } := by
  decide +kernel

/-! ### C15 -/

theorem table_cycles (p : Params) (diag : Option (List Int)) (raw : List Raw) :
    (table p diag raw).map Row.cycle = kept diag raw := by
  rw [table_map Row.cycle (fun _ _ _ _ => rfl)]
  simp [aggregate]

/-- C15, contents: the summary lists the regular cycles in ascending order, all of them or
all but the last, and a run with a single regular cycle keeps it. -/
theorem C15_contents (p : Params) (diag : Option (List Int)) (raw : List Raw) (s : List Row)
    (h : summarize p diag raw = .ok s) (all : List Int) (hall : RegularCycles (diag.getD []) raw all) :
    (s.map Row.cycle = all ∨ s.map Row.cycle = all.dropLast) ∧
    (all.length = 1 → s.map Row.cycle = all) := by
  have e := regular_unique (kept_regular diag raw) hall
  have ht := table_cycles p diag raw
  rw [e] at ht
  constructor
  · rcases summarize_prefix h with e | e
    · left; rw [e, ht]
    · right; rw [e, List.map_dropLast, ht]
  · intro h1
    unfold summarize at h
    have hl : (table p diag raw).length = 1 := by rw [← ht, List.length_map] at h1; exact h1
    simp only [hl, if_true] at h
    cases h
    exact ht

theorem last_cycle {raw : List Raw} {c : Int} (hc : ∃ r ∈ raw, r.cycle = c) (hmax : ∀ r ∈ raw, r.cycle ≤ c) :
    (cycles raw).getLast? = some c := by
  have hm : c ∈ cycles raw := mem_cycles.mpr hc
  have hs := sorted_groupKeys (raw.map Raw.cycle)
  have hne : cycles raw ≠ [] := List.ne_nil_of_mem hm
  rw [List.getLast?_eq_some_getLast hne]
  have hx := List.getLast_mem hne
  obtain ⟨r, hr, hrc⟩ := mem_cycles.mp hx
  have h1 : (cycles raw).getLast hne ≤ c := by rw [← hrc]; exact hmax r hr
  congr 1
  apply le_antisymm h1
  obtain ⟨l, hl⟩ : ∃ l, cycles raw = l ++ [(cycles raw).getLast hne] := ⟨_, (List.dropLast_append_getLast hne).symm⟩
  unfold cycles at hl hm
  rw [hl] at hs hm
  rcases List.mem_append.mp hm with h | h
  · exact le_of_lt ((List.pairwise_append.mp hs).2.2 c h _ (List.mem_singleton.mpr rfl))
  · exact le_of_eq (List.mem_singleton.mp h)

/-- C15 (partial: the last cycle of the raw data is a regular cycle).  The last cycle is
dropped exactly when there is more than one regular cycle and it fails the completeness
rule. -/
theorem C15_last_cycle_partial (p : Params) (diag : Option (List Int)) (raw : List Raw)
    (all : List Int) (hall : RegularCycles (diag.getD []) raw all) (c : Int)
    (hc : ∃ r ∈ raw, r.cycle = c) (hmax : ∀ r ∈ raw, r.cycle ≤ c) (hreg : c ∉ diag.getD []) :
    ∃ s, summarize p diag raw = .ok s ∧
      (s.map Row.cycle = all ↔ all.length = 1 ∨ Complete p raw c) ∧
      (s.map Row.cycle = all.dropLast ↔ all.length ≠ 1 ∧ ¬ Complete p raw c) := by
  have e := regular_unique (kept_regular diag raw) hall
  have ht := table_cycles p diag raw
  have hlast := last_cycle hc hmax
  have hkl := kept_last (diag := diag) hlast hreg
  have hne : all ≠ [] := by rintro rfl; rw [e] at hkl; cases hkl
  have hdl : all.dropLast ≠ all := by
    intro h
    have := congrArg List.length h
    rw [List.length_dropLast] at this
    have : all.length ≠ 0 := fun h => hne (List.length_eq_zero_iff.mp h)
    omega
  have hlen : (table p diag raw).length = all.length := by
    rw [← e, ← ht, List.length_map]
  have htne : table p diag raw ≠ [] := by
    intro h; rw [h] at hlen; exact hne (List.length_eq_zero_iff.mp hlen.symm)
  rw [e] at ht
  unfold summarize
  simp only
  by_cases h1 : (table p diag raw).length = 1
  · rw [if_pos h1]
    refine ⟨_, rfl, ?_, ?_⟩
    · rw [ht]; simp [← hlen, h1]
    · rw [ht]
      constructor
      · intro h; exact absurd h.symm hdl
      · rintro ⟨h, _⟩; exact absurd (hlen ▸ h1) h
  · rw [if_neg h1, List.getLast?_eq_some_getLast htne]
    simp only
    -- the last row of the table is the row of `c`
    have hget : (table p diag raw)[(table p diag raw).length - 1]? = some ((table p diag raw).getLast htne) := by
      rw [← List.getLast?_eq_getElem?, List.getLast?_eq_some_getLast htne]
    obtain ⟨c', hc', _, _, e3, e4, _⟩ := table_get p diag raw _ _ hget
    have : c' = c := by
      rw [List.getLast?_eq_getElem?, e, ← hlen, ← e, hc'] at hkl
      exact Option.some.inj hkl
    subst this
    have hiff := lastComplete_iff p raw _ c' hlast e4 e3
    have h1' : all.length ≠ 1 := hlen ▸ h1
    by_cases hcomp : lastComplete p raw ((table p diag raw).getLast htne) = true
    · rw [if_pos hcomp]
      refine ⟨_, rfl, ?_, ?_⟩
      · rw [ht]; simp [hiff.mp hcomp]
      · rw [ht]
        constructor
        · intro h; exact absurd h.symm hdl
        · rintro ⟨_, h⟩; exact absurd (hiff.mp hcomp) h
    · rw [if_neg hcomp]
      have hnc : ¬ Complete p raw c' := fun h => hcomp (hiff.mpr h)
      refine ⟨_, rfl, ?_, ?_⟩
      · rw [List.map_dropLast, ht]
        constructor
        · intro h; exact absurd h hdl
        · rintro (h | h)
          · exact absurd h h1'
          · exact absurd h hnc
      · rw [List.map_dropLast, ht]
        simp [h1', hnc]

/-- C15, no regular cycle: data with diagnostic cycles only give an empty summary, or an error exactly when
the voltage of the last cycle goes below `vmin` and above `vmax` -/
theorem C15_no_regular (p : Params) (diag : Option (List Int)) (raw : List Raw) (c : Int)
    (hc : ∃ r ∈ raw, r.cycle = c) (hmax : ∀ r ∈ raw, r.cycle ≤ c) (hall : ∀ r ∈ raw, r.cycle ∈ diag.getD []) :
    let crossed := (∃ r ∈ rowsOf raw c, ∃ v, r.voltage = some v ∧ v < p.vmin) ∧
      ∃ r ∈ rowsOf raw c, ∃ v, r.voltage = some v ∧ v > p.vmax
    (crossed → summarize p diag raw = .error .indexError) ∧ (¬ crossed → summarize p diag raw = .ok []) := by
  have hlast := last_cycle hc hmax
  have hk : kept diag raw = [] := by
    refine List.eq_nil_iff_forall_not_mem.mpr fun x hx => ?_
    obtain ⟨⟨r, hr, rfl⟩, hn⟩ := ((kept_regular diag raw).2 x).mp hx
    exact hn (hall r hr)
  have ht : table p diag raw = [] := by
    have := table_cycles p diag raw
    rw [hk] at this
    exact List.map_eq_nil_iff.mp this
  have hv : ∀ (P : Rat → Prop), (∃ v, some v ∈ (cycleRows raw c).map Raw.voltage ∧ P v) ↔
      ∃ r ∈ rowsOf raw c, ∃ v, r.voltage = some v ∧ P v := by
    intro P
    constructor
    · rintro ⟨v, hv, hp⟩
      rw [List.mem_map] at hv
      obtain ⟨r, hr, e⟩ := hv
      exact ⟨r, hr, v, e, hp⟩
    · rintro ⟨r, hr, v, e, hp⟩
      exact ⟨v, List.mem_map.mpr ⟨r, hr, e⟩, hp⟩
  have key : (ltN (minN (lastVolts raw)) p.vmin && gtN (maxN (lastVolts raw)) p.vmax) = true ↔
      ((∃ r ∈ rowsOf raw c, ∃ v, r.voltage = some v ∧ v < p.vmin) ∧
        ∃ r ∈ rowsOf raw c, ∃ v, r.voltage = some v ∧ v > p.vmax) := by
    simp only [Bool.and_eq_true, ltN_min, gtN_max, lastVolts, hlast]
    rw [hv, hv]
  simp only [summarize, ht, List.length_nil, List.getLast?_nil]
  constructor
  · intro h
    rw [if_pos (key.mpr h)]; rfl
  · intro h
    rw [if_neg (fun h' => h (key.mp h'))]; rfl

-- both cases: one diagnostic cycle with and without crossing both voltages
example : summarize {} (some [0]) [⟨0, some 1, some 1, some 1, some 1, 0, some 3⟩, ⟨0, some 1, some 1, some 1, some 1, 1, some 4⟩] =
    .error .indexError ∧
    summarize {} (some [0]) [⟨0, some 1, some 1, some 1, some 1, 0, some 3⟩] = .ok [] := by decide +kernel

/-- two complete regular cycles followed by a diagnostic cycle that stays below 3.3 V -/
def diagEnd : List Raw :=
  [⟨0, some 1, some 1, some 1, some 1, 0, some 3⟩, ⟨0, some 1, some 1, some 1, some 1, 1, some 4⟩,
   ⟨1, some 1, some 1, some 1, some 1, 2, some 3⟩, ⟨1, some 1, some 1, some 1, some 1, 3, some 4⟩,
   ⟨2, some 1, some 1, some 1, some 1, 4, some 3⟩]

/-- C15 fails when the run ends with a diagnostic cycle: the complete regular cycle 1 is
dropped because of the voltages of the diagnostic cycle 2. -/
theorem C15_diagnostic_end_violated :
    Complete {} diagEnd 1 ∧
    (summarize {} (some [2]) diagEnd).map (List.map Row.cycle) = .ok [0] := by
  constructor
  · refine ⟨⟨⟨1, some 1, some 1, some 1, some 1, 2, some 3⟩, by decide +kernel, 3, rfl, by decide +kernel⟩,
      ⟨⟨1, some 1, some 1, some 1, some 1, 3, some 4⟩, by decide +kernel, 4, rfl, by decide +kernel⟩,
      1, 1, isMax_iff.mp (by decide +kernel), isMax_iff.mp (by decide +kernel), by decide +kernel⟩
  · decide +kernel

/-- without the diagnostic cycle both cycles are kept; an incomplete second cycle is dropped -/
example : (summarize {} none (diagEnd.take 4)).map (List.map Row.cycle) = .ok [0, 1] ∧
    (summarize {} none (diagEnd.take 3)).map (List.map Row.cycle) = .ok [0] ∧
    (summarize {} none (diagEnd.take 1)).map (List.map Row.cycle) = .ok [0] := by decide +kernel

/-! ### C16 -/

/-- C16 (partial: nothing is claimed for a run that ends exactly at the threshold).  With a
positive reference capacity, the result is the label of the first cycle below the
threshold if the run ends below it, and the number of cycles plus one if it ends above. -/
theorem C16_cycle_life_partial (s : Caps) (cutoff : Nat) (thr m : Rat) (last : Int × Rat)
    (hl : s.getLast? = some last) (hm : maxCapacity s cutoff = some m) (hpos : 0 < m) :
    (last.2 < thr * m → ∃ c, getCycleLife s cutoff thr = .ok c ∧ FirstBelow s (thr * m) c) ∧
    (last.2 > thr * m → getCycleLife s cutoff thr = .ok (s.length + 1)) := by
  have hr : ratioLe last.2 m thr = true ↔ last.2 ≤ thr * m := by
    unfold ratioLe
    rw [if_neg (ne_of_gt hpos), decide_eq_true_eq, div_le_iff₀ hpos]
  constructor
  · intro h
    unfold getCycleLife
    rw [hl, hm]
    simp only
    rw [if_pos (hr.mpr (le_of_lt h))]
    cases hf : s.find? (fun r => decide (r.2 < thr * m)) with
    | none =>
      rw [List.find?_eq_none] at hf
      exact absurd (by simpa using h) (hf last (List.mem_of_getLast? hl))
    | some r => exact ⟨r.1, rfl, find_firstBelow hf⟩
  · intro h
    unfold getCycleLife
    rw [hl, hm]
    simp only
    rw [if_neg]
    rw [hr]
    exact not_le.mpr h

/-- without a reference capacity (no cycles to take the median of) no run counts as ended -/
theorem C16_no_reference (s : Caps) (thr : Rat) (hs : s ≠ []) : getCycleLife s 0 thr = .ok (s.length + 1) := by
  have hm : maxCapacity s 0 = none := by
    have h0 : s.length > 0 := List.length_pos_iff.2 hs
    unfold maxCapacity
    rw [if_pos h0]
    rfl
  unfold getCycleLife
  rw [hm, List.getLast?_eq_some_getLast hs]

/-- the reference capacity is 1.1 for runs of at most `cutoff` cycles -/
theorem C16_reference (s : Caps) (cutoff : Nat) (h : s.length ≤ cutoff) :
    maxCapacity s cutoff = some (11 / 10) := by
  unfold maxCapacity
  rw [if_neg (by omega)]

/-- the reference capacity of a longer run is the median discharge capacity of its first `cutoff`
cycles -/
theorem C16_median (s : Caps) (cutoff : Nat) (m : Rat) (h : cutoff < s.length) :
    maxCapacity s cutoff = some m ↔ Spec.Stats.IsMedian ((s.take cutoff).map Prod.snd) m := by
  unfold maxCapacity
  rw [if_pos h, Proof.Stats.isMedian_sorted, ← Proof.Stats.middle_iff]
  show (if (Proof.Stats.sorted _).length = 0 then none else _) = some m ↔ _
  split
  · rename_i h0
    rw [List.length_eq_zero_iff] at h0
    simp only [h0]
    simp
  · exact Iff.rfl

example : maxCapacity [(1, 3), (2, 1), (3, 2), (4, 5), (5, 0)] 4 = some (5 / 2) ∧
    maxCapacity [(1, 3), (2, 1), (3, 2), (4, 5), (5, 0)] 3 = some 2 := by decide +kernel

/-- C16 (partial: labels ascending and at most the number of cycles plus one, no
exception): a lower threshold never gives an earlier cycle life. -/
theorem C16_monotone_partial (s : Caps) (cutoff : Nat) (t1 t2 m : Rat) (c1 c2 : Int)
    (hm : maxCapacity s cutoff = some m) (hpos : 0 < m) (h12 : t1 ≤ t2)
    (hasc : (s.map Prod.fst).Pairwise (· < ·)) (hlab : ∀ r ∈ s, r.1 ≤ s.length + 1)
    (h1 : getCycleLife s cutoff t1 = .ok c1) (h2 : getCycleLife s cutoff t2 = .ok c2) : c2 ≤ c1 := by
  have hr : ∀ x t, ratioLe x m t = true ↔ x ≤ t * m := by
    intro x t
    unfold ratioLe
    rw [if_neg (ne_of_gt hpos), decide_eq_true_eq, div_le_iff₀ hpos]
  have hle : t1 * m ≤ t2 * m := mul_le_mul_of_nonneg_right h12 (le_of_lt hpos)
  unfold getCycleLife at h1 h2
  cases hl : s.getLast? with
  | none => rw [hl] at h1; cases h1
  | some last =>
    rw [hl, hm] at h1 h2
    simp only at h1 h2
    by_cases e1 : ratioLe last.2 m t1 = true
    · have e2 : ratioLe last.2 m t2 = true := (hr _ _).mpr (le_trans ((hr _ _).mp e1) hle)
      rw [if_pos e1] at h1
      rw [if_pos e2] at h2
      split at h1
      swap
      · cases h1
      rename_i r1 hf1
      split at h2
      swap
      · cases h2
      rename_i r2 hf2
      cases h1; cases h2
      obtain ⟨hb, as, bs, e, hbefore⟩ := List.find?_eq_some_iff_append.mp hf2
      obtain ⟨hb1, _⟩ := List.find?_eq_some_iff_append.mp hf1
      have hmem := List.mem_of_find?_eq_some hf1
      rw [e] at hmem hasc
      rw [List.map_append, List.map_cons, List.pairwise_append, List.pairwise_cons] at hasc
      rcases List.mem_append.mp hmem with h | h
      · have := hbefore r1 h
        simp only [decide_eq_true_eq] at hb1
        simp only [Bool.not_eq_true', decide_eq_false_iff_not, not_lt] at this
        exact absurd hb1 (not_lt.mpr (le_trans hle this))
      · rcases List.mem_cons.mp h with h | h
        · rw [h]
        · exact le_of_lt (hasc.2.1.1 r1.1 (List.mem_map_of_mem h))
    · rw [if_neg e1] at h1
      cases h1
      split at h2
      · split at h2
        · rename_i r2 hf2
          cases h2
          exact hlab r2 (List.mem_of_find?_eq_some hf2)
        · cases h2
      · cases h2; exact le_refl _

/-- C16 fails at equality: a run that ends exactly at the threshold without having been
below it raises `IndexError`. -/
theorem C16_equality_violated :
    getCycleLife [(1, 11 / 10), (2, 88 / 100)] 40 (8 / 10) = .error .indexError := by decide +kernel

/-- C16 fails after a recovery: cycle 2 was below the threshold, but the run is reported as
never having fallen. -/
theorem C16_recovery_violated :
    getCycleLife [(1, 11 / 10), (2, 1 / 2), (3, 1)] 40 (8 / 10) = .ok 4 := by decide +kernel

/-- C16: with labels that skip (diagnostic cycles left out) a lower threshold can give an
earlier cycle life -/
theorem C16_monotone_violated :
    getCycleLife [(1, 11 / 10), (50, 1 / 2)] 40 (8 / 10) = .ok 50 ∧
    getCycleLife [(1, 11 / 10), (50, 1 / 2)] 40 (1 / 10) = .ok 3 := by decide +kernel

example : getCycleLife [(1, 11 / 10), (2, 1), (3, 8 / 10), (4, 7 / 10)] 40 (8 / 10) = .ok 3 ∧
    getCycleLife [(1, 1), (2, 1), (3, 9 / 10), (4, 7 / 10)] 3 (8 / 10) = .ok 4 := by decide +kernel

/-! ### C63 -/

/-- C63 (partial: summaries whose cycles are numbered 0, 1, 2, …): saving and loading does
not change the cycle life. -/
theorem C63_reload_partial (s : Caps) (cutoff : Nat) (thr : Rat)
    (hnum : ∀ (i : Nat) r, s[i]? = some r → r.1 = (i : Int)) :
    getCycleLife (reload s) cutoff thr = getCycleLife s cutoff thr := by
  have : reload s = s := by
    apply List.ext_getElem?
    intro i
    unfold reload
    rw [List.getElem?_map, List.getElem?_zipIdx]
    cases h : s[i]? with
    | none => rfl
    | some r =>
      have := hnum i r h
      simp only [Option.map_some, Nat.zero_add, ← this]
  rw [this]

/-- C63 fails otherwise: the reloaded object reports the row position instead of the
cycle index. -/
theorem C63_reload_violated :
    getCycleLife [(1, 11 / 10), (2, 1 / 2)] 40 (8 / 10) = .ok 2 ∧
    getCycleLife (reload [(1, 11 / 10), (2, 1 / 2)]) 40 (8 / 10) = .ok 1 := by decide +kernel

/-! ### C17 -/

/-- C17, capacities to cycles: one entry per threshold `maxCap - i * interval` (rounded to
two digits), holding the cycle life at that threshold. -/
theorem C17_capacities (s : Caps) (maxCap minCap interval : Rat) (out : List (Rat × Int))
    (h : capacitiesToCycles s maxCap minCap interval = .ok out) :
    out.length = ((maxCap - minCap) / interval).ceil.toNat ∧
    ∀ (i : Nat) t c, out[i]? = some (t, c) →
      t = round2 (maxCap - (i : Rat) * interval) ∧ getCycleLife s 40 t = .ok c := by
  unfold capacitiesToCycles at h
  obtain ⟨h1, h2⟩ := mapE_ok h
  refine ⟨by rw [h1]; simp [arangeDown], ?_⟩
  intro i t c hi
  have hlt : i < ((arangeDown maxCap minCap interval).map round2).length := by
    rw [← h1]; exact (List.getElem?_eq_some_iff.mp hi).1
  have hlt' : i < ((maxCap - minCap) / interval).ceil.toNat := by simpa [arangeDown] using hlt
  have hg : ((arangeDown maxCap minCap interval).map round2)[i]? =
      some (round2 (maxCap - (i : Rat) * interval)) := by
    unfold arangeDown
    rw [List.getElem?_map, List.getElem?_map, List.getElem?_range hlt']
    rfl
  obtain ⟨b, hb, hb'⟩ := h2 i _ hg
  rw [hi] at hb'
  cases hb'
  split at hb
  · cases hb
  · rename_i c' hc'
    cases hb
    exact ⟨rfl, hc'⟩

/-- C17, order: among the entries a lower threshold never has an earlier cycle (labels
ascending and at most the number of cycles plus one). -/
theorem C17_order_partial (s : Caps) (maxCap minCap interval m : Rat) (out : List (Rat × Int))
    (h : capacitiesToCycles s maxCap minCap interval = .ok out)
    (hm : maxCapacity s 40 = some m) (hpos : 0 < m)
    (hasc : (s.map Prod.fst).Pairwise (· < ·)) (hlab : ∀ r ∈ s, r.1 ≤ s.length + 1)
    (a b : Rat × Int) (ha : a ∈ out) (hb : b ∈ out) (hab : a.1 ≤ b.1) : b.2 ≤ a.2 := by
  obtain ⟨i, hi⟩ := List.mem_iff_getElem?.mp ha
  obtain ⟨j, hj⟩ := List.mem_iff_getElem?.mp hb
  have h1 := ((C17_capacities s maxCap minCap interval out h).2 i a.1 a.2 hi).2
  have h2 := ((C17_capacities s maxCap minCap interval out h).2 j b.1 b.2 hj).2
  exact C16_monotone_partial s 40 a.1 b.1 m a.2 b.2 hm hpos hab hasc hlab h1 h2

theorem zipIdx_filterMap_all {l : List Nat} (g : Nat → Nat → Option Rat) (n : Nat)
    (h : ∀ (i c : Nat), l[i]? = some c → (g (i + n) c).isSome) :
    (l.zipIdx n).filterMap (fun p => (g p.2 p.1).map (fun v => (p.1, v))) =
      (l.zipIdx n).map (fun p => (p.1, (g p.2 p.1).getD 0)) := by
  induction l generalizing n with
  | nil => rfl
  | cons a l ih =>
    have h0 := h 0 a rfl
    simp only [Nat.zero_add] at h0
    obtain ⟨v, hv⟩ := Option.isSome_iff_exists.mp h0
    simp only [List.zipIdx_cons, List.filterMap_cons, List.map_cons, hv, Option.map_some, Option.getD_some]
    rw [ih (n + 1)]
    intro i c hi
    have := h (i + 1) c (by simpa using hi)
    rwa [show i + 1 + n = i + (n + 1) by omega] at this

/-- C17, cycles to capacities (partial: the interval divides the range, or the summary is
long enough): entry `i` belongs to cycle `min + i * interval` and holds the capacity at
that position of the summary, 0 if the summary is too short. -/
theorem C17_cycles_partial (s : Caps) (min max interval : Nat) (hi : 1 ≤ interval) (hmm : min ≤ max)
    (hok : interval ∣ (max - min) ∨ max ≤ s.length) :
    ∃ out, cyclesToCapacities s min max interval = .ok out ∧
      ∀ i c v, out[i]? = some (c, v) ↔ c = min + i * interval ∧ c < max ∧
        v = ((s[c]?).map Prod.snd).getD 0 := by
  have hceil : ∀ i, i < (max - min + interval - 1) / interval ↔ min + i * interval < max := by
    intro i
    rw [Nat.lt_div_iff_mul_lt (by omega)]
    constructor <;> intro h <;> omega
  unfold cyclesToCapacities
  simp only
  have hidx : ∀ (i c : Nat), (arangeNat min max interval)[i]? = some c ↔
      c = min + i * interval ∧ c < max := by
    intro i c
    unfold arangeNat
    rw [List.getElem?_map]
    by_cases h : i < (max - min + interval - 1) / interval
    · rw [List.getElem?_range h]
      simp only [Option.map_some, Option.some.injEq]
      have := (hceil i).mp h
      constructor
      · rintro rfl; exact ⟨rfl, this⟩
      · rintro ⟨rfl, _⟩; rfl
    · rw [List.getElem?_eq_none (by simpa using h)]
      have := fun h' => h ((hceil i).mpr h')
      simp only [Option.map_none, reduceCtorEq, false_iff]
      rintro ⟨rfl, h'⟩; exact this h'
  let g : Nat → Nat → Option Rat := fun i c => match s[c]? with
    | some r => some r.2
    | none => if i < (max - min) / interval then some 0 else none
  have hg : ∀ (i c : Nat), (arangeNat min max interval)[i]? = some c → g i c = some (((s[c]?).map Prod.snd).getD 0) := by
    intro i c hic
    simp only [g]
    cases hs : s[c]? with
    | some r => rfl
    | none =>
      simp only [Option.map_none, Option.getD_none]
      obtain ⟨h1, h2⟩ := (hidx i c).mp hic
      rw [if_pos]
      rcases hok with hd | hl
      · rw [Nat.lt_div_iff_mul_lt' hd]
        have := Nat.mul_comm interval i
        omega
      · rw [List.getElem?_eq_none_iff] at hs; omega
  have hall : ∀ (i c : Nat), (arangeNat min max interval)[i]? = some c → (g (i + 0) c).isSome := by
    intro i c hic
    rw [Nat.add_zero, hg i c hic]; rfl
  have e := zipIdx_filterMap_all (l := arangeNat min max interval) g 0 hall
  have e' : ((arangeNat min max interval).zipIdx.filterMap (fun p => (g p.2 p.1).map (fun v => (p.1, v)))).length =
      (arangeNat min max interval).length := by
    rw [e]; simp
  refine ⟨_, if_pos e', ?_⟩
  intro i c v
  show ((arangeNat min max interval).zipIdx.filterMap (fun p => (g p.2 p.1).map (fun v => (p.1, v))))[i]? = _ ↔ _
  rw [e, List.getElem?_map, List.getElem?_zipIdx]
  cases hx : (arangeNat min max interval)[i]? with
  | none =>
    simp only [Option.map_none, reduceCtorEq, false_iff]
    rintro ⟨h1, h2, _⟩
    rw [(hidx i c).mpr ⟨h1, h2⟩] at hx
    cases hx
  | some c' =>
    have hgc := hg i c' hx
    obtain ⟨h1, h2⟩ := (hidx i c').mp hx
    simp only [Option.map_some, Nat.zero_add, hgc, Option.getD_some, Option.some.injEq, Prod.mk.injEq]
    constructor
    · rintro ⟨rfl, rfl⟩; exact ⟨h1, h2, rfl⟩
    · rintro ⟨rfl, _, rfl⟩; exact ⟨h1, by rw [h1]⟩

/-- C17 fails when the interval does not divide the range and the summary is shorter than
the last requested cycle: `ValueError`. -/
theorem C17_uneven_violated : cyclesToCapacities [(0, 1), (1, 1)] 0 5 2 = .error .valueError := by
  decide +kernel

/-- C17 fails for short summaries: a capacity of 0 is reported for a cycle that was never
recorded. -/
theorem C17_short_violated :
    cyclesToCapacities [(0, 1), (1, 1)] 0 4 2 = .ok [(0, 1), (2, 0)] := by decide +kernel

/-- C17 fails when the cycles are not numbered from 0: the entry for cycle 1 holds the
capacity of cycle 2. -/
theorem C17_position_violated :
    cyclesToCapacities [(1, 1), (2, 9 / 10)] 1 2 1 = .ok [(1, 9 / 10)] := by decide +kernel

example : cyclesToCapacities [(0, 1), (1, 9 / 10), (2, 8 / 10), (3, 7 / 10)] 0 3 2 =
    .ok [(0, 1), (2, 8 / 10)] := by decide +kernel

example : capacitiesToCycles [(0, 1), (1, 9 / 10), (2, 8 / 10), (3, 6 / 10)] (9 / 10) (6 / 10) (1 / 10) =
    .ok [(9 / 10, 1), (8 / 10, 2), (7 / 10, 3)] := by decide +kernel

end Beep.Props.Summary
