import Verif.Proof.Interp
/-
C11: interpolation returns the requested grid and never leaves the data.
C12: interpolated data contain exactly the requested cycles.
-/
namespace Beep.Props.Interp
open Beep Beep.Pandas Beep.Steps Beep.Interp Beep.Spec.Interp

/-- C11, the grid: for `a < b` and resolution at least two the result has exactly `n` rows
and row `i` sits at the `i`-th of the `n` evenly spaced points from `a` to `b`, with one
value per column. -/
theorem C11_grid (t : Table) (m : Nat) (a b : Rat) (n : Nat) (hab : a < b) (hn : 2 ≤ n) :
    ∃ out, interpolateDf t m (some (a, b)) n = .ok out ∧ out.length = n ∧
      ∀ i < n, ∃ vals, out[i]? = some (a + (i : Rat) * ((b - a) / ((n : Rat) - 1)), vals) ∧
        vals.length = m := by
  refine ⟨_, rfl, ?_, ?_⟩
  · rw [sort_of_strict (linspace_strict a b n hab), List.length_map, length_linspace]
  · intro i hi
    rw [sort_of_strict (linspace_strict a b n hab), List.getElem?_map, getElem?_linspace a b n hn i hi]
    exact ⟨_, rfl, by simp⟩

/-- without a range the result is that for the range from the first to the last axis value of the frame; only an empty
frame is refused -/
theorem C11_default_range (t : Table) (m n : Nat) :
    (∀ a v b w mid, t = (a, v) :: mid ∧ t.getLast? = some (b, w) →
      interpolateDf t m none n = interpolateDf t m (some (a, b)) n) ∧
    ((∃ out, interpolateDf t m none n = .ok out) ↔ t ≠ []) := by
  constructor
  · rintro a v b w mid ⟨rfl, hl⟩
    unfold interpolateDf
    simp only [List.head?_cons, hl]
  · cases t with
    | nil => simp [interpolateDf]
    | cons p t =>
      have : ∃ q, (p :: t).getLast? = some q := ⟨_, List.getLast?_eq_some_getLast (by simp)⟩
      obtain ⟨q, hq⟩ := this
      unfold interpolateDf
      simp only [List.head?_cons, hq]
      simp

/-- the first and last grid points are the ends of the range -/
theorem C11_endpoints (t : Table) (m : Nat) (a b : Rat) (n : Nat) (hab : a < b) (hn : 2 ≤ n)
    (out) (h : interpolateDf t m (some (a, b)) n = .ok out) :
    (out.map Prod.fst).head? = some a ∧ (out.map Prod.fst).getLast? = some b := by
  obtain ⟨out', h', hlen, hi⟩ := C11_grid t m a b n hab hn
  rw [h] at h'; cases h'
  constructor
  · obtain ⟨v, hv, _⟩ := hi 0 (by omega)
    rw [List.head?_eq_getElem?, List.getElem?_map, hv]
    simp
  · obtain ⟨v, hv, _⟩ := hi (n - 1) (by omega)
    rw [List.getLast?_eq_getElem?, List.getElem?_map, List.length_map, hlen, hv]
    have : ((n - 1 : Nat) : Rat) = (n : Rat) - 1 := by
      rw [Nat.cast_sub (by omega)]; simp
    have h0 : (n : Rat) - 1 ≠ 0 := by
      have : (2 : Rat) ≤ n := by exact_mod_cast hn
      linarith
    simp only [Option.map_some, this, Option.some.injEq]
    field_simp
    ring

/-- a descending range gives the same grid, listed in ascending order -/
theorem C11_grid_descending (t : Table) (m : Nat) (a b : Rat) (n : Nat) (hab : b < a) (hn : 2 ≤ n) :
    ∃ out, interpolateDf t m (some (a, b)) n = .ok out ∧ out.length = n ∧
      ∀ i < n, ∃ vals,
        out[i]? = some (b + (i : Rat) * ((a - b) / ((n : Rat) - 1)), vals) ∧ vals.length = m := by
  refine ⟨_, rfl, ?_, ?_⟩
  · rw [sort_of_strict_desc (linspace_strict_desc a b n hab), List.length_map, List.length_reverse,
      length_linspace]
  · intro i hi
    rw [sort_of_strict_desc (linspace_strict_desc a b n hab), List.getElem?_map,
      List.getElem?_reverse (by rw [length_linspace]; exact hi), length_linspace,
      getElem?_linspace a b n hn (n - 1 - i) (by omega)]
    refine ⟨(List.range m).map (fun j => valueAt t j (b + (i : Rat) * ((a - b) / ((n : Rat) - 1)))),
      ?_, by simp⟩
    have h1 : ((n - 1 - i : Nat) : Rat) = (n : Rat) - 1 - i := by
      rw [Nat.cast_sub (by omega), Nat.cast_sub (by omega)]; norm_num
    have h0 : (n : Rat) - 1 ≠ 0 := by
      have : (2 : Rat) ≤ n := by exact_mod_cast hn
      linarith
    have e : a + ((n - 1 - i : Nat) : Rat) * ((b - a) / ((n : Rat) - 1)) =
        b + (i : Rat) * ((a - b) / ((n : Rat) - 1)) := by
      rw [h1]; field_simp; ring
    simp only [Option.map_some, e]

/-- the value of column `j` in an output row depends only on the axis value -/
theorem out_value (t : Table) (m : Nat) (r : Rat × Rat) (n : Nat) (out)
    (h : interpolateDf t m (some r) n = .ok out) (x : Rat) (vals) (hx : (x, vals) ∈ out) (j : Nat)
    (hj : j < m) : vals[j]? = some (valueAt t j x) := by
  unfold interpolateDf at h
  simp only [Except.ok.injEq] at h
  subst h
  rw [List.mem_map] at hx
  obtain ⟨x', _, he⟩ := hx
  cases he
  simp [hj]

/-- C11, exactness: a grid point that coincides with a measured axis value reproduces the
measurement. -/
theorem C11_exact (t : Table) (hd : DistinctAxis t) (m : Nat) (r : Rat × Rat) (n : Nat) (out)
    (h : interpolateDf t m (some r) n = .ok out) (x : Rat) (vals) (hx : (x, vals) ∈ out) (j : Nat)
    (hj : j < m) (y : Rat) (hy : Measured t j x y) : vals[j]? = some (some y) := by
  rw [out_value t m r n out h x vals hx j hj, valueAt_distinct hd]
  have hs := known_sorted t j hd
  rw [← mem_known] at hy
  match hk : known t j with
  | [] => rw [hk] at hy; cases hy
  | (x0, y0) :: rest =>
    rw [hk] at hs hy
    have h0 : ¬ x < x0 := by
      rcases List.mem_cons.mp hy with e | e
      · cases e; exact lt_irrefl _
      · exact not_lt.mpr (le_of_lt ((List.pairwise_cons.mp hs).1 _ e))
    simp only [interpAt, h0, if_false, interpFrom_at x0 y0 rest hs x y hy]

/-- C11, linearity: between two neighbouring measurements the value lies on the straight
line through them. -/
theorem C11_linear (t : Table) (hd : DistinctAxis t) (m : Nat) (r : Rat × Rat) (n : Nat) (out)
    (h : interpolateDf t m (some r) n = .ok out) (x : Rat) (vals) (hx : (x, vals) ∈ out) (j : Nat)
    (hj : j < m) (p yp q yq : Rat) (hn : Neighbours t j p yp q yq) (h1 : p ≤ x) (h2 : x ≤ q) :
    vals[j]? = some (some (yp + (yq - yp) * ((x - p) / (q - p)))) := by
  rw [out_value t m r n out h x vals hx j hj, valueAt_distinct hd]
  have hs := known_sorted t j hd
  obtain ⟨hp, hq, hpq, hno⟩ := hn
  rw [← mem_known] at hp hq
  match hk : known t j with
  | [] => rw [hk] at hp; cases hp
  | (x0, y0) :: rest =>
    have hno' : ∀ z ∈ (x0, y0) :: rest, z.1 ≤ p ∨ q ≤ z.1 := by
      intro z hz
      rw [← hk] at hz
      exact hno z.1 z.2 ((mem_known t j z.1 z.2).mp hz)
    rw [hk] at hs hp hq
    have h0 : ¬ x < x0 := by
      rcases List.mem_cons.mp hp with e | e
      · cases e; exact not_lt.mpr h1
      · exact not_lt.mpr (le_trans (le_of_lt ((List.pairwise_cons.mp hs).1 _ e)) h1)
    simp only [interpAt, h0, if_false, interpFrom_between x0 y0 rest hs p yp q yq x hp hq hpq hno' h1 h2]

/-- C11, bound: every value that is produced lies between two measurements of its column. -/
theorem C11_bounded (t : Table) (hd : DistinctAxis t) (m : Nat) (r : Rat × Rat) (n : Nat) (out)
    (h : interpolateDf t m (some r) n = .ok out) (x : Rat) (vals) (hx : (x, vals) ∈ out) (j : Nat)
    (hj : j < m) (v : Rat) (hv : vals[j]? = some (some v)) :
    ∃ xl yl xh yh, Measured t j xl yl ∧ Measured t j xh yh ∧ yl ≤ v ∧ v ≤ yh := by
  rw [out_value t m r n out h x vals hx j hj, valueAt_distinct hd] at hv
  have hs := known_sorted t j hd
  match hk : known t j with
  | [] => rw [hk] at hv; simp [interpAt] at hv
  | (x0, y0) :: rest =>
    rw [hk] at hv hs
    simp only [interpAt] at hv
    by_cases h0 : x < x0
    · simp [h0] at hv
    · simp only [h0, if_false, Option.some.injEq] at hv
      obtain ⟨lo, hlo, hi, hhi, h1, h2⟩ := interpFrom_bounds x0 y0 rest hs x (not_lt.mp h0)
      rw [hv] at h1 h2
      rw [← hk] at hlo hhi
      exact ⟨lo.1, lo.2, hi.1, hi.2, (mem_known ..).mp hlo, (mem_known ..).mp hhi, h1, h2⟩

/-- C11, definedness: a value is missing exactly when no measurement lies at or before the
grid point; beyond the last measurement the last value is repeated (not extrapolated). -/
theorem C11_defined (t : Table) (hd : DistinctAxis t) (m : Nat) (r : Rat × Rat) (n : Nat) (out)
    (h : interpolateDf t m (some r) n = .ok out) (x : Rat) (vals) (hx : (x, vals) ∈ out) (j : Nat)
    (hj : j < m) : vals[j]? = some none ↔ ∀ p y, Measured t j p y → x < p := by
  rw [out_value t m r n out h x vals hx j hj, valueAt_distinct hd]
  have hs := known_sorted t j hd
  match hk : known t j with
  | [] =>
    simp only [interpAt, true_iff]
    intro p y hm
    rw [← mem_known, hk] at hm; cases hm
  | (x0, y0) :: rest =>
    rw [hk] at hs
    constructor
    · intro hv p y hm
      rw [← mem_known, hk] at hm
      have h0 : x < x0 := by
        by_contra h0
        simp [interpAt, h0] at hv
      rcases List.mem_cons.mp hm with e | e
      · cases e; exact h0
      · exact lt_trans h0 ((List.pairwise_cons.mp hs).1 _ e)
    · intro hall
      have h0 : x < x0 := hall x0 y0 (by rw [← mem_known, hk]; simp)
      simp [interpAt, h0]

/-- a single-point range collapses to a single row, at that point, whatever the resolution -/
theorem C11_degenerate (t : Table) (m : Nat) (a : Rat) (n : Nat) (hn : n ≠ 0) :
    ∃ out, interpolateDf t m (some (a, a)) n = .ok out ∧ out.map Prod.fst = [a] := by
  refine ⟨_, rfl, ?_⟩
  rw [sort_const a n hn]
  rfl

/-- three measurements with a gap in the second column, five grid points -/
example : interpolateDf [(1, [some 10, none]), (3, [some 30, some 5]), (2, [some 0, some 1])] 2
    (some (1, 3)) 5 = .ok [(1, [some 10, none]), (3 / 2, [some 5, none]), (2, [some 0, some 1]),
      (5 / 2, [some 15, some 3]), (3, [some 30, some 5])] := by decide +kernel

example : DistinctAxis [(1, [some 10, none]), (3, [some 30, some 5]), (2, [some 0, some 1])] := by
  unfold DistinctAxis; decide +kernel

example : Neighbours [(1, [some 10]), (3, [some 30]), (2, [some 0])] 0 1 10 2 0 := by
  refine ⟨⟨_, List.mem_cons_self .., rfl⟩, ⟨_, List.mem_cons_of_mem _ (List.mem_cons_of_mem _ (List.mem_cons_self ..)), rfl⟩,
    by decide +kernel, ?_⟩
  rintro x y ⟨vals, hm, hv⟩
  simp only [List.mem_cons, Prod.mk.injEq, List.not_mem_nil, or_false] at hm
  rcases hm with h | h | h
  · left; rw [h.1]
  · right; rw [h.1]; decide +kernel
  · right; rw [h.1]

/-- a descending range -/
example : interpolateDf [(1, [some 10]), (3, [some 30])] 1 (some (3, 1)) 3 =
    .ok [(1, [some 10]), (2, [some 20]), (3, [some 30])] := by decide +kernel

/-! ### C12 -/

/-- C12, which cycles: every row of the result belongs to a requested cycle that is not
excluded and that occurs in the raw data, and carries the requested step type. -/
theorem C12_only_requested (raw : List Row) (indet : Bool) (v : Rat × Rat) (n : Nat) (st : String)
    (reg : List Int) (axis : String) (exclude : List Int) (out : List OutRow)
    (h : interpolateStep raw indet v n st reg axis exclude = .ok out) :
    ∀ r ∈ out, r.cycle ∈ reg ∧ r.cycle ∉ exclude ∧ (∃ q ∈ raw, q.cycle = r.cycle) ∧ r.stepType = st := by
  intro r hr
  obtain ⟨c, hc, b, hb, hrb⟩ := collect_mem h hr
  have hrc := interpolateCycle_mem hb r hrb
  obtain ⟨h1, h2, h3⟩ := mem_cycleIndices.mp hc
  rw [hrc.1]
  exact ⟨h2, h3, h1, hrc.2⟩

/-- C12, order: the rows are in ascending order of the cycle index. -/
theorem C12_order (raw : List Row) (indet : Bool) (v : Rat × Rat) (n : Nat) (st : String)
    (reg : List Int) (axis : String) (exclude : List Int) (out : List OutRow)
    (h : interpolateStep raw indet v n st reg axis exclude = .ok out) :
    (out.map OutRow.cycle).Pairwise (· ≤ ·) := by
  have hs := cycleIndices_sorted raw reg exclude
  unfold interpolateStep at h
  generalize cycleIndices raw reg exclude = cs at h hs
  induction cs generalizing out with
  | nil => simp [collect] at h; subst h; exact List.Pairwise.nil
  | cons c cs ih =>
    obtain ⟨b, hb, bs, hbs, rfl⟩ := collect_cons h
    have hs' := List.pairwise_cons.mp hs
    rw [List.map_append, List.pairwise_append]
    refine ⟨?_, ih bs hbs hs'.2, ?_⟩
    · rw [List.pairwise_map]
      apply List.pairwise_of_forall_mem_list
      intro x hx y hy
      rw [(interpolateCycle_mem hb x hx).1, (interpolateCycle_mem hb y hy).1]
    · intro x hx y hy
      rw [List.mem_map] at hx hy
      obtain ⟨x', hx', rfl⟩ := hx
      obtain ⟨y', hy', rfl⟩ := hy
      obtain ⟨c', hc', b', hb', hyb⟩ := collect_mem hbs hy'
      rw [(interpolateCycle_mem hb x' hx').1, (interpolateCycle_mem hb' y' hyb).1]
      exact le_of_lt (hs'.1 c' hc')

/-- the rows of one step of one cycle of the raw data -/
def stepOf (raw : List Row) (c s : Int) : List Row :=
  (raw.filter (fun r => r.cycle = c)).filter (fun r => r.step = some s)

/-- how many rows (stated as C12_count in `Props/CyclesInterp`): for a requested cycle `c` and a step `s` the result has exactly `n`
rows if the step is of the requested kind and has at least two raw rows, and none
otherwise, provided the interpolation range of the step is not a single point. -/
theorem count_of_range (raw : List Row) (indet chg : Bool) (v : Rat × Rat) (n : Nat)
    (reg : List Int) (axis : String) (exclude : List Int) (out : List OutRow) (hn : 2 ≤ n)
    (h : interpolateStep raw indet v n (if chg then "charge" else "discharge") reg axis exclude = .ok out)
    (c s : Int) (hc : c ∈ reg) (hx : c ∉ exclude)
    (hr : ∀ r, axisRange raw (stepOf raw c s) axis v = .ok r → r.1 ≠ r.2) :
    out.countP (fun r => decide (r.cycle = c) && decide (r.step = s)) =
      if stepIsChgState chg indet (stepOf raw c s) = true ∧ 2 ≤ (stepOf raw c s).length then n else 0 := by
  unfold interpolateStep at h
  by_cases hin : ∃ q ∈ raw, q.cycle = c
  · have hmem : c ∈ cycleIndices raw reg exclude := mem_cycleIndices.mpr ⟨hin, hc, hx⟩
    obtain ⟨b, hb, e⟩ := collect_countP (p := fun r => decide (r.cycle = c) && decide (r.step = s)) h
      ((cycleIndices_sorted raw reg exclude).imp (fun h => ne_of_lt h)) c hmem (by
        intro a _ hac b hb
        rw [List.countP_eq_zero]
        intro r hr
        rw [(interpolateCycle_mem hb r hr).1]
        simp [hac])
    rw [e]
    exact interpolateCycle_count chg hn hb s hr
  · have h0 : stepOf raw c s = [] := by
      unfold stepOf
      rw [List.filter_filter, List.filter_eq_nil_iff]
      intro r hr hh
      simp only [Bool.and_eq_true, decide_eq_true_eq] at hh
      exact hin ⟨r, hr, hh.2⟩
    have : out.countP (fun r => decide (r.cycle = c) && decide (r.step = s)) = 0 := by
      rw [List.countP_eq_zero]
      intro r hr
      obtain ⟨c', hc', b, hb, hrb⟩ := collect_mem h hr
      rw [(interpolateCycle_mem hb r hrb).1]
      have : c' ≠ c := by
        rintro rfl
        exact hin (mem_cycleIndices.mp hc').1
      simp [this]
    rw [this, h0]
    simp

/-- C12, success: interpolation on voltage succeeds for every raw table without missing
voltages. -/
theorem C12_voltage_succeeds (raw : List Row) (indet chg : Bool) (v : Rat × Rat) (n : Nat)
    (reg exclude : List Int) (hv : ∀ r ∈ raw, r.voltage ≠ none) :
    ∃ out, interpolateStep raw indet v n (if chg then "charge" else "discharge") reg "voltage" exclude =
      .ok out := by
  unfold interpolateStep
  apply collect_succeeds
  intro c _
  unfold interpolateCycle
  obtain ⟨steps, hs⟩ := iterateSteps_ok indet chg (raw.filter (fun r => r.cycle = c))
  rw [hs]
  apply collect_succeeds
  intro g hg
  unfold interpolateOneStep
  split
  · exact ⟨_, rfl⟩
  · rename_i hlen
    obtain ⟨k, hk⟩ := iterateSteps_key hs g hg
    have hax : axisRange raw g "voltage" v = .ok v := by simp [axisRange]
    rw [hax]
    match hg' : g.filterMap Row.step with
    | [] =>
      exfalso
      match g, hlen with
      | r :: g, _ => simp [hk r (by simp)] at hg'
      | [], hlen => simp at hlen
    | s :: l =>
      have hgap : hasGap "voltage" g = false := by
        rw [Bool.eq_false_iff]
        intro hh
        unfold hasGap at hh
        rw [List.any_eq_true] at hh
        obtain ⟨r, hr, hn⟩ := hh
        have hrr := iterateSteps_mem hs g hg r hr
        rw [List.mem_filter] at hrr
        have : axisOf "voltage" r = r.voltage := rfl
        rw [this, Option.isNone_iff_eq_none] at hn
        exact hv r hrr.1 hn
      simp only [hgap]
      exact ⟨_, rfl⟩

/-- C12, unknown axis: it is refused as soon as there is a step to interpolate. -/
theorem C12_unknown_axis (raw : List Row) (indet chg : Bool) (v : Rat × Rat) (n : Nat)
    (reg : List Int) (axis : String) (exclude : List Int)
    (ha : axis ∉ ["charge_capacity", "discharge_capacity", "test_time", "voltage"]) :
    (interpolateStep raw indet v n (if chg then "charge" else "discharge") reg axis exclude =
        .error .valueError ↔
      ∃ c s, c ∈ reg ∧ c ∉ exclude ∧ 2 ≤ (stepOf raw c s).length ∧
        stepIsChgState chg indet (stepOf raw c s) = true) ∧
    ((¬ ∃ c s, c ∈ reg ∧ c ∉ exclude ∧ 2 ≤ (stepOf raw c s).length ∧
        stepIsChgState chg indet (stepOf raw c s) = true) →
      interpolateStep raw indet v n (if chg then "charge" else "discharge") reg axis exclude = .ok []) := by
  classical
  have key : ∀ c g, interpolateOneStep raw axis (if chg then "charge" else "discharge") v n c g =
      if g.length < 2 then .ok [] else .error .valueError := by
    intro c g
    unfold interpolateOneStep
    split
    · rfl
    · simp only [List.mem_cons, List.not_mem_nil, or_false, not_or] at ha
      simp [axisRange, ha]
  have cyc : ∀ c, interpolateCycle raw indet axis (if chg then "charge" else "discharge") v n c =
      if ∃ s, 2 ≤ (stepOf raw c s).length ∧ stepIsChgState chg indet (stepOf raw c s) = true
      then .error .valueError else .ok [] := by
    intro c
    unfold interpolateCycle
    rw [iterateSteps_eq]
    simp only
    rw [collect_map]
    by_cases hh : ∃ s, 2 ≤ (stepOf raw c s).length ∧ stepIsChgState chg indet (stepOf raw c s) = true
    · rw [if_pos hh]
      obtain ⟨s, h1, h2⟩ := hh
      refine collect_error ?_ s ?_ ?_
      · intro a _; rw [key]; split <;> simp
      · rw [mem_stepKeys_filterGroups]
        refine ⟨?_, h2⟩
        match hg : stepOf raw c s with
        | [] => rw [hg] at h1; simp at h1
        | r :: _ =>
          have hr : r ∈ stepOf raw c s := by rw [hg]; simp
          unfold stepOf at hr
          rw [List.mem_filter] at hr
          exact ⟨r, hr.1, by simpa using hr.2⟩
      · rw [key]
        have : ¬ (stepRows (raw.filter (fun r => r.cycle = c)) s).length < 2 := not_lt.mpr h1
        rw [if_neg this]
    · rw [if_neg hh]
      apply collect_nil
      intro s hs
      rw [key, if_pos]
      by_contra hlt
      exact hh ⟨s, not_lt.mp hlt, (mem_stepKeys_filterGroups.mp hs).2⟩
  have hall : ∀ c, interpolateCycle raw indet axis (if chg then "charge" else "discharge") v n c = .ok [] ∨
      interpolateCycle raw indet axis (if chg then "charge" else "discharge") v n c = .error .valueError := by
    intro c; rw [cyc]; split <;> simp
  unfold interpolateStep
  have hno : (¬ ∃ c s, c ∈ reg ∧ c ∉ exclude ∧ 2 ≤ (stepOf raw c s).length ∧
        stepIsChgState chg indet (stepOf raw c s) = true) →
      collect (interpolateCycle raw indet axis (if chg then "charge" else "discharge") v n)
        (cycleIndices raw reg exclude) = .ok [] := by
    intro hh
    apply collect_nil
    intro c hc
    rw [cyc, if_neg]
    rintro ⟨s, h1, h2⟩
    obtain ⟨_, h3, h4⟩ := mem_cycleIndices.mp hc
    exact hh ⟨c, s, h3, h4, h1, h2⟩
  refine ⟨⟨?_, ?_⟩, hno⟩
  · intro he
    by_contra hh
    rw [hno hh] at he
    cases he
  · rintro ⟨c, s, h1, h2, h3, h4⟩
    refine collect_error ?_ c ?_ ?_
    · intro a _; exact hall a
    · refine mem_cycleIndices.mpr ⟨?_, h1, h2⟩
      match hg : stepOf raw c s with
      | [] => rw [hg] at h3; simp at h3
      | r :: _ =>
        have hr : r ∈ stepOf raw c s := by rw [hg]; simp
        unfold stepOf at hr
        rw [List.mem_filter, List.mem_filter] at hr
        exact ⟨r, hr.1.1, by simpa using hr.1.2⟩
    · rw [cyc, if_pos ⟨s, h3, h4⟩]

/-- C12, diagnostics: no row of the interpolated aging cycles belongs to a diagnostic or an
excluded cycle. -/
theorem C12_no_diagnostic (raw : List Row) (indet : Bool) (diag : List Int) (vr : Option (Rat × Rat))
    (n : Nat) (ca da : String) (exclude : List Int) (w1 w2 : Bool) (out : List OutRow)
    (h : interpolateCycles raw indet (some diag) vr n ca da exclude w1 w2 = .ok out) :
    ∀ r ∈ out, r.cycle ∉ diag ∧ r.cycle ∉ exclude ∧ (∃ q ∈ raw, q.cycle = r.cycle) := by
  unfold interpolateCycles at h
  simp only at h
  split at h
  · cases h
  rename_i d hd
  split at h
  · cases h
  rename_i c hc
  simp only [Except.ok.injEq] at h
  subst h
  have aux : ∀ r : OutRow, r.cycle ∈ unique ((raw.filter (fun r => !diag.contains r.cycle)).map Row.cycle) →
      r.cycle ∉ diag := by
    intro r hr
    rw [mem_unique, List.mem_map] at hr
    obtain ⟨q, hq, e⟩ := hr
    rw [List.mem_filter] at hq
    rw [← e]
    simpa using hq.2
  intro r hr
  rcases List.mem_append.mp hr with hr | hr
  · obtain ⟨h1, h2, h3, _⟩ := C12_only_requested _ _ _ _ _ _ _ _ _ hd r hr
    exact ⟨aux r h1, h2, h3⟩
  · obtain ⟨h1, h2, h3, _⟩ := C12_only_requested _ _ _ _ _ _ _ _ _ hc r hr
    exact ⟨aux r h1, h2, h3⟩

/-- two cycles (one excluded), one charge step of three rows and one of a single row -/
def exRaw : List Row :=
  [{ cycle := 2, step := some 1, charge := some 0, discharge := some 0, voltage := some 3 },
   { cycle := 2, step := some 1, charge := some 1, discharge := some 0, voltage := some (7/2) },
   { cycle := 2, step := some 1, charge := some 2, discharge := some 0, voltage := some 4 },
   { cycle := 2, step := some 5, charge := some 2, discharge := some 0, voltage := some 4 },
   { cycle := 1, step := some 1, charge := some 0, discharge := some 0, voltage := some 3 },
   { cycle := 1, step := some 1, charge := some 1, discharge := some 0, voltage := some 4 }]

example : (interpolateStep exRaw true (3, 4) 3 "charge" [1, 2] "voltage" [1]).map
      (List.map (fun r => (r.cycle, r.step, r.x, r.vals[2]?))) =
    .ok [(2, 1, 3, some (some 0)), (2, 1, 7/2, some (some 1)), (2, 1, 4, some (some 2))] := by
  decide +kernel

example : stepIsChgState true true (stepOf exRaw 2 1) = true ∧ (stepOf exRaw 2 1).length = 3 := by
  decide +kernel

end Beep.Props.Interp
