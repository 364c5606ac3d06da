import Verif.Props.Interp
import Verif.Model.CyclesInterp
import Verif.Spec.CyclesInterp
/-
C78: the interpolated aging cycles hold the steps' data on the promised axes.
-/
namespace Beep.Props.CyclesInterp
open Beep.Pandas Beep.Steps Beep.Interp Beep.CyclesInterp Beep.Spec.CyclesInterp
open Beep Beep.Spec.Interp Beep.Props.Interp

theorem interpFrom_last (x0 y0 : Rat) (rest : List (Rat × Rat))
    (hs : ((x0, y0) :: rest).Pairwise (fun p q => p.1 < q.1)) (p yp x : Rat)
    (hp : (p, yp) ∈ (x0, y0) :: rest) (hall : ∀ z ∈ (x0, y0) :: rest, z.1 ≤ p) (hx : p ≤ x) :
    interpFrom x0 y0 rest x = yp := by
  induction rest generalizing x0 y0 with
  | nil =>
    simp only [List.mem_cons, Prod.mk.injEq, List.not_mem_nil, or_false] at hp
    simp [interpFrom, hp.2]
  | cons r rest ih =>
    obtain ⟨x1, y1⟩ := r
    have hs' := List.pairwise_cons.mp hs
    have h1 : x1 ≤ p := hall (x1, y1) (by simp)
    have hx1 : ¬ x < x1 := not_lt.mpr (le_trans h1 hx)
    simp only [interpFrom, hx1, if_false]
    refine ih x1 y1 hs'.2 ?_ (fun z hz => hall z (List.mem_cons_of_mem _ hz))
    rcases List.mem_cons.mp hp with h | h
    · cases h
      have := hs'.1 (x1, y1) (by simp)
      simp only at this
      linarith
    · exact h

/-- C11, extrapolation: at and beyond the last measurement the last value is repeated. -/
theorem C11_beyond (t : Table) (hd : DistinctAxis t) (m : Nat) (r : Rat × Rat) (n : Nat) (out)
    (h : interpolateDf t m (some r) n = .ok out) (x : Rat) (vals) (hx : (x, vals) ∈ out) (j : Nat)
    (hj : j < m) (p yp : Rat) (hp : Measured t j p yp) (hall : ∀ z yz, Measured t j z yz → z ≤ p)
    (hpx : p ≤ x) : vals[j]? = some (some yp) := by
  rw [out_value t m r n out h x vals hx j hj, valueAt_distinct hd]
  have hs := known_sorted t j hd
  rw [← mem_known] at hp
  match hk : known t j with
  | [] => rw [hk] at hp; cases hp
  | (x0, y0) :: rest =>
    have hall' : ∀ z ∈ (x0, y0) :: rest, z.1 ≤ p := by
      intro z hz
      rw [← hk] at hz
      exact hall z.1 z.2 ((mem_known t j z.1 z.2).mp hz)
    rw [hk] at hs hp
    have h0 : ¬ x < x0 := not_lt.mpr (le_trans (hall' (x0, y0) (by simp)) hpx)
    simp only [interpAt, h0, if_false, interpFrom_last x0 y0 rest hs p yp x hp hall' hpx]

theorem axisOf_column {axis : String} {ax : Row → Option Rat} (h : AxisColumn axis ax) :
    axisOf axis = ax := by
  cases h <;> rfl

theorem axisIdx_place {axis : String} {ax : Row → Option Rat} (h : AxisColumn axis ax) :
    AxisPlace axis (axisIdx axis) := by
  cases h
  · exact .charge
  · exact .discharge
  · exact .time
  · exact .voltage

theorem axisIdx_lt (axis : String) (g : List Row) : axisIdx axis < width g := by
  have h1 : axisIdx axis < 4 := by unfold axisIdx; split_ifs <;> omega
  have h2 : 4 ≤ width g := by cases g <;> simp [width]
  omega

theorem measured_iff {axis : String} {ax : Row → Option Rat} (h : AxisColumn axis ax)
    (rows : List Row) (j : Nat) (x y : Rat) :
    Measured (tableOf axis rows) j x y ↔ Reading ax rows j x y := by
  unfold Measured Reading tableOf
  rw [axisOf_column h]
  constructor
  · rintro ⟨vals, hm, hv⟩
    rw [List.mem_filterMap] at hm
    obtain ⟨r, hr, he⟩ := hm
    rcases hax : ax r with _ | x'
    · rw [hax] at he; cases he
    · rw [hax] at he
      simp only [Option.map_some, Option.some.injEq, Prod.mk.injEq] at he
      obtain ⟨rfl, rfl⟩ := he
      exact ⟨r, hr, hax, hv⟩
  · rintro ⟨r, hr, hx, hv⟩
    refine ⟨colsOf r, ?_, hv⟩
    rw [List.mem_filterMap]
    exact ⟨r, hr, by rw [hx]; rfl⟩

theorem distinct_of {axis : String} {ax : Row → Option Rat} (h : AxisColumn axis ax)
    (rows : List Row) (hd : DistinctOn ax rows) : DistinctAxis (tableOf axis rows) := by
  unfold DistinctAxis tableOf
  rw [axisOf_column h]
  have e : (rows.filterMap fun r => (ax r).map fun x => (x, colsOf r)).map Prod.fst = rows.filterMap ax := by
    rw [List.map_filterMap]
    congr 1
    funext r
    cases ax r <;> rfl
  rw [e]
  exact hd

theorem extent_of {col : Row → Option Rat} {rows : List Row} {lo hi : Rat}
    (h1 : minN (rows.map col) = some lo) (h2 : maxN (rows.map col) = some hi) :
    Extent col rows lo hi := by
  obtain ⟨a, b⟩ := minN_some _ _ h1
  obtain ⟨c, d⟩ := maxN_some _ _ h2
  rw [List.mem_map] at a c
  refine ⟨a, c, ?_⟩
  intro r hr x hx
  have : some x ∈ rows.map col := List.mem_map.mpr ⟨r, hr, hx⟩
  exact ⟨b x this, d x this⟩

theorem range_of {raw step : List Row} {axis : String} {v : Rat × Rat} {lo hi : Rat}
    (h : axisRange raw step axis v = .ok (lo, hi)) :
    (∃ ax, AxisColumn axis ax) ∧ GridRange raw step v axis lo hi := by
  have aux : ∀ l : List (Option Rat), (match minN l, maxN l with
      | some a, some b => Except.ok (a, b)
      | _, _ => .error Err.notImplemented) = .ok (lo, hi) → minN l = some lo ∧ maxN l = some hi := by
    intro l h
    split at h
    · rename_i a b ha hb
      cases h
      exact ⟨ha, hb⟩
    · cases h
  unfold axisRange at h
  simp only at h
  by_cases h1 : axis = "charge_capacity"
  · subst h1
    simp only [BEq.rfl, Bool.true_or, if_true] at h
    obtain ⟨a, b⟩ := aux _ h
    exact ⟨⟨_, .charge⟩, .charge (extent_of a b)⟩
  by_cases h2 : axis = "discharge_capacity"
  · subst h2
    simp only [BEq.rfl, Bool.or_true, if_true] at h
    obtain ⟨a, b⟩ := aux _ h
    exact ⟨⟨_, .discharge⟩, .discharge (extent_of a b)⟩
  rw [if_neg (by simp [h1, h2])] at h
  by_cases h3 : axis = "test_time"
  · subst h3
    simp only [BEq.rfl, if_true] at h
    obtain ⟨a, b⟩ := aux _ h
    exact ⟨⟨_, .time⟩, .time (extent_of a b)⟩
  rw [if_neg (by simp [h3])] at h
  by_cases h4 : axis = "voltage"
  · subst h4
    simp only [BEq.rfl, if_true] at h
    cases h
    exact ⟨⟨_, .voltage⟩, .voltage⟩
  rw [if_neg (by simp [h4])] at h
  cases h

theorem mem_linspace {a b x : Rat} {n : Nat} (hn : 2 ≤ n) (h : x ∈ linspace a b n) :
    OnGrid a b n x := by
  obtain ⟨i, hi, e⟩ := List.getElem_of_mem h
  rw [length_linspace] at hi
  refine ⟨i, hi, ?_⟩
  have := getElem?_linspace a b n hn i hi
  rw [List.getElem?_eq_getElem (by rw [length_linspace]; exact hi), e] at this
  exact Option.some.inj this

/-- every value of an interpolated row is the piecewise linear interpolation -/
theorem interpolated_of {axis : String} {ax : Row → Option Rat} (hax : AxisColumn axis ax) (g : List Row)
    (hd : DistinctOn ax g) {m : Nat} {r : Rat × Rat} {n : Nat} {rows}
    (hrows : interpolateDf (tableOf axis g) m (some r) n = .ok rows) (x : Rat) (vals)
    (hq : (x, vals) ∈ rows) (j : Nat) (hj : j < m) (w : Option Rat) (hw : vals[j]? = some w) :
    Interpolated ax g j x w := by
  have hda := distinct_of hax g hd
  constructor
  · intro y hy
    have := C11_exact _ hda _ _ _ _ hrows x vals hq j hj y ((measured_iff hax ..).mpr hy)
    rw [hw] at this; exact Option.some.inj this
  · intro p yp q yq hp hq' hpq hno h1 h2
    have := C11_linear _ hda _ _ _ _ hrows x vals hq j hj p yp q yq
      ⟨(measured_iff hax ..).mpr hp, (measured_iff hax ..).mpr hq', hpq,
        fun z yz hz => hno z yz ((measured_iff hax ..).mp hz)⟩ h1 h2
    rw [hw] at this; exact Option.some.inj this
  · intro p yp hp hall h1
    have := C11_beyond _ hda _ _ _ _ hrows x vals hq j hj p yp ((measured_iff hax ..).mpr hp)
      (fun z yz hz => hall z yz ((measured_iff hax ..).mp hz)) h1
    rw [hw] at this; exact Option.some.inj this
  · intro hall
    have := (C11_defined _ hda _ _ _ _ hrows x vals hq j hj).mpr
      (fun z yz hz => hall z yz ((measured_iff hax ..).mp hz))
    rw [hw] at this; exact Option.some.inj this

/-- one output row of a step -/
theorem oneStep_row {raw : List Row} {axis st : String} {v : Rat × Rat} {n : Nat} (hn : 2 ≤ n) {c : Int}
    {g : List Row} {out : List OutRow} (h : interpolateOneStep raw axis st v n c g = .ok out)
    (o : OutRow) (ho : o ∈ out) :
    2 ≤ g.length ∧ ∃ ax k lo hi, AxisColumn axis ax ∧ AxisPlace axis k ∧ GridRange raw g v axis lo hi ∧
      OnGrid lo hi n o.x ∧ o.vals.length = width g ∧ o.vals[k]? = some (some o.x) ∧
      (DistinctOn ax g → ∀ j w, j ≠ k → o.vals[j]? = some w → Interpolated ax g j o.x w) := by
  unfold interpolateOneStep at h
  by_cases hl : g.length < 2
  · rw [if_pos hl] at h; cases h; cases ho
  rw [if_neg hl] at h
  refine ⟨by omega, ?_⟩
  split at h
  · cases h
  rename_i range hrange
  split at h
  · cases h
  split at h
  · cases h
  split at h
  · cases h
  rename_i rows hrows
  cases h
  rw [List.mem_map] at ho
  obtain ⟨q, hq, rfl⟩ := ho
  obtain ⟨lo, hi⟩ := range
  obtain ⟨⟨ax, hax⟩, hgr⟩ := range_of hrange
  have hq2 := hq
  have hlen : q.2.length = width g ∧ OnGrid lo hi n q.1 := by
    have hrows' := hrows
    unfold interpolateDf at hrows'
    simp only [Except.ok.injEq] at hrows'
    subst hrows'
    rw [List.mem_map] at hq2
    obtain ⟨x, hx, rfl⟩ := hq2
    rw [mem_unique, mem_sortBy] at hx
    exact ⟨by simp, mem_linspace hn hx⟩
  refine ⟨ax, axisIdx axis, lo, hi, hax, axisIdx_place hax, hgr, hlen.2,
    by rw [List.length_set]; exact hlen.1,
    by rw [List.getElem?_set_self (by rw [hlen.1]; exact axisIdx_lt axis g)], ?_⟩
  intro hd j w hjk hw
  simp only at hw
  rw [List.getElem?_set_ne (Ne.symm hjk)] at hw
  have hj : j < width g := by
    rw [← hlen.1]
    exact (List.getElem?_eq_some_iff.mp hw).1
  exact interpolated_of hax g hd hrows q.1 q.2 hq j hj w hw

theorem rowsOf_eq (raw : List Row) (c s : Int) : rowsOf raw c s = stepOf raw c s := by
  unfold rowsOf stepOf
  rw [List.filter_filter]
  congr 1
  funext r
  rw [Bool.and_comm]

theorem width_rowsOf (g : List Row) (r : Row) (l : List Row) (h : g = r :: l) :
    width g = (cells r).length := by
  subst h; simp [width, cells]; omega

/-- one row of the interpolated steps of one kind -/
theorem step_row {raw : List Row} {indet chg : Bool} {v : Rat × Rat} {n : Nat} (hn : 2 ≤ n)
    {reg : List Int} {axis : String} {exclude : List Int} {out : List OutRow}
    (h : interpolateStep raw indet v n (if chg then "charge" else "discharge") reg axis exclude = .ok out)
    (o : OutRow) (ho : o ∈ out) :
    o.stepType = (if chg then "charge" else "discharge") ∧
    o.cycle ∈ reg ∧ o.cycle ∉ exclude ∧
    stepIsChgState chg indet (rowsOf raw o.cycle o.step) = true ∧
    2 ≤ (rowsOf raw o.cycle o.step).length ∧
    ∃ ax k lo hi, AxisColumn axis ax ∧ AxisPlace axis k ∧
      GridRange raw (rowsOf raw o.cycle o.step) v axis lo hi ∧
      OnGrid lo hi n o.x ∧ o.vals.length = width (rowsOf raw o.cycle o.step) ∧
      o.vals[k]? = some (some o.x) ∧
      (DistinctOn ax (rowsOf raw o.cycle o.step) →
        ∀ j w, j ≠ k → o.vals[j]? = some w → Interpolated ax (rowsOf raw o.cycle o.step) j o.x w) := by
  obtain ⟨c, hc, b, hb, hob⟩ := collect_mem h ho
  have hm := interpolateCycle_mem hb o hob
  obtain ⟨_, h2, h3⟩ := mem_cycleIndices.mp hc
  unfold interpolateCycle at hb
  rw [iterateSteps_eq] at hb
  simp only at hb
  obtain ⟨g, hg, b', hb', hob'⟩ := collect_mem hb hob
  rw [List.mem_map] at hg
  obtain ⟨k, hk, rfl⟩ := hg
  have hstep : o.step = k := by
    obtain ⟨_, _, q, hq, hs⟩ := interpolateOneStep_mem hb' o hob'
    unfold stepRows at hq
    rw [List.mem_filter] at hq
    have := hq.2
    rw [hs] at this
    simpa using this
  have e : stepRows (raw.filter (fun r => r.cycle = c)) k = rowsOf raw o.cycle o.step := by
    rw [rowsOf_eq, hm.1, hstep]; rfl
  have hdir : stepIsChgState chg indet (rowsOf raw o.cycle o.step) = true := by
    rw [← e]
    exact (mem_stepKeys_filterGroups.mp hk).2
  rw [e] at hb'
  obtain ⟨hlen, rest⟩ := oneStep_row hn hb' o hob'
  rw [hm.1]
  rw [hm.1] at hdir hlen rest
  exact ⟨hm.2, h2, h3, hdir, hlen, rest⟩

theorem collect_ok_iff {α β : Type} {f : α → Except Err (List β)} {as : List α} :
    (∃ out, collect f as = .ok out) ↔ ∀ a ∈ as, ∃ b, f a = .ok b := by
  refine ⟨?_, collect_succeeds⟩
  rintro ⟨out, h⟩
  induction as generalizing out with
  | nil => intro a ha; cases ha
  | cons a as ih =>
    obtain ⟨b, hb, bs, hbs, rfl⟩ := collect_cons h
    intro x hx
    rcases List.mem_cons.mp hx with rfl | hx
    · exact ⟨b, hb⟩
    · exact ih bs hbs x hx

theorem hasGap_iff {axis : String} {ax : Row → Option Rat} (h : AxisColumn axis ax) (g : List Row) :
    hasGap axis g = true ↔ ∃ r ∈ g, ax r = none := by
  unfold hasGap
  rw [axisOf_column h, List.any_eq_true]
  simp

theorem oneStep_ok_iff {raw : List Row} {axis st : String} {ax : Row → Option Rat}
    (h : AxisColumn axis ax) {v : Rat × Rat} {n : Nat} {c k : Int} {g : List Row}
    (hsub : ∀ r ∈ g, r ∈ raw) (hk : ∀ r ∈ g, r.step = some k) :
    (∃ out, interpolateOneStep raw axis st v n c g = .ok out) ↔
      (2 ≤ g.length → ∀ r ∈ g, ax r ≠ none) := by
  unfold interpolateOneStep
  by_cases hl : g.length < 2
  · rw [if_pos hl]
    exact ⟨fun _ h2 => by omega, fun _ => ⟨_, rfl⟩⟩
  rw [if_neg hl]
  have hs : ∃ l, g.filterMap Row.step = k :: l := by
    match g, hl with
    | [], hl => simp at hl
    | r :: g, _ => exact ⟨g.filterMap Row.step, by simp [hk r (by simp)]⟩
  obtain ⟨l, hs⟩ := hs
  constructor
  · rintro ⟨out, ho⟩ _ r hr hn
    split at ho
    · cases ho
    split at ho
    · cases ho
    rw [if_pos ((hasGap_iff h g).mpr ⟨r, hr, hn⟩)] at ho
    cases ho
  · intro hall
    have hall := hall (by omega)
    have hgap : hasGap axis g = false := by
      rw [Bool.eq_false_iff]
      intro hg
      obtain ⟨r, hr, hn⟩ := (hasGap_iff h g).mp hg
      exact hall r hr hn
    obtain ⟨r0, hr0⟩ : ∃ r, r ∈ g := by
      match g, hl with
      | [], hl => simp at hl
      | r :: g, _ => exact ⟨r, by simp⟩
    obtain ⟨x0, hx0⟩ := Option.ne_none_iff_exists'.mp (hall r0 hr0)
    have ext : ∀ (l : List Row), r0 ∈ l → ∃ lo hi, minN (l.map ax) = some lo ∧ maxN (l.map ax) = some hi := by
      intro l hm
      have hin : some x0 ∈ l.map ax := List.mem_map.mpr ⟨r0, hm, hx0⟩
      have h1 : minN (l.map ax) ≠ none := fun e => (minN_none _).mp e ⟨x0, hin⟩
      have h2 : maxN (l.map ax) ≠ none := fun e => (maxN_none _).mp e ⟨x0, hin⟩
      obtain ⟨lo, hlo⟩ := Option.ne_none_iff_exists'.mp h1
      obtain ⟨hi, hhi⟩ := Option.ne_none_iff_exists'.mp h2
      exact ⟨lo, hi, hlo, hhi⟩
    have hrange : ∃ r, axisRange raw g axis v = .ok r := by
      obtain ⟨lo1, hi1, e1, e2⟩ := ext raw (hsub r0 hr0)
      obtain ⟨lo2, hi2, e3, e4⟩ := ext g hr0
      rw [← axisOf_column h] at e1 e2 e3 e4
      unfold axisRange
      simp only [e1, e2, e3, e4]
      cases h <;> exact ⟨_, rfl⟩
    obtain ⟨r, hr⟩ := hrange
    rw [hr, hs]
    simp only [hgap]
    exact ⟨_, rfl⟩

/-- C12, acceptance: interpolation on a known axis succeeds exactly when no step that is to
be interpolated has a row without a value on the axis. -/
theorem C12_accepts (raw : List Row) (indet chg : Bool) (v : Rat × Rat) (n : Nat)
    (reg : List Int) (axis : String) (ax : Row → Option Rat) (hax : AxisColumn axis ax) (exclude : List Int) :
    (∃ out, interpolateStep raw indet v n (if chg then "charge" else "discharge") reg axis exclude = .ok out) ↔
      ∀ c s, c ∈ reg → c ∉ exclude → stepIsChgState chg indet (rowsOf raw c s) = true →
        2 ≤ (rowsOf raw c s).length → ∀ r ∈ rowsOf raw c s, ax r ≠ none := by
  unfold interpolateStep
  rw [collect_ok_iff]
  have cyc : ∀ c, (∃ b, interpolateCycle raw indet axis (if chg then "charge" else "discharge") v n c = .ok b) ↔
      ∀ s, stepIsChgState chg indet (rowsOf raw c s) = true →
        2 ≤ (rowsOf raw c s).length → ∀ r ∈ rowsOf raw c s, ax r ≠ none := by
    intro c
    unfold interpolateCycle
    rw [iterateSteps_eq]
    simp only
    rw [collect_map, collect_ok_iff]
    have e : ∀ s, stepRows (raw.filter (fun r => r.cycle = c)) s = rowsOf raw c s := by
      intro s; rw [rowsOf_eq]; rfl
    have one : ∀ s, (∃ b, interpolateOneStep raw axis (if chg then "charge" else "discharge") v n c
        (stepRows (raw.filter (fun r => r.cycle = c)) s) = .ok b) ↔
        (2 ≤ (rowsOf raw c s).length → ∀ r ∈ rowsOf raw c s, ax r ≠ none) := by
      intro s
      rw [e]
      refine oneStep_ok_iff (k := s) hax ?_ ?_
      · intro r hr; exact (List.mem_filter.mp hr).1
      · intro r hr
        have := (List.mem_filter.mp hr).2
        simp only [Bool.and_eq_true, decide_eq_true_eq] at this
        exact this.2
    constructor
    · intro h s h1 h2
      refine (one s).mp (h s ?_) h2
      rw [mem_stepKeys_filterGroups, e]
      refine ⟨?_, h1⟩
      match hg : rowsOf raw c s with
      | [] => rw [hg] at h2; simp at h2
      | r :: _ =>
        have hr : r ∈ rowsOf raw c s := by rw [hg]; simp
        rw [← e] at hr
        obtain ⟨h3, h4⟩ := List.mem_filter.mp hr
        exact ⟨r, h3, by simpa using h4⟩
    · intro h s hs
      rw [one]
      rw [mem_stepKeys_filterGroups, e] at hs
      exact h s hs.2
  constructor
  · intro h c s h1 h2 h3 h4
    refine (cyc c).mp (h c (mem_cycleIndices.mpr ⟨?_, h1, h2⟩)) s h3 h4
    match hg : rowsOf raw c s with
    | [] => rw [hg] at h4; simp at h4
    | r :: _ =>
      have hr : r ∈ rowsOf raw c s := by rw [hg]; simp
      obtain ⟨h5, h6⟩ := List.mem_filter.mp hr
      simp only [Bool.and_eq_true, decide_eq_true_eq] at h6
      exact ⟨r, h5, h6.1⟩
  · intro h c hc
    obtain ⟨_, h1, h2⟩ := mem_cycleIndices.mp hc
    exact (cyc c).mpr (fun s => h c s h1 h2)

theorem rowsOf_regular (raw : List WfRow) (p : Int → Bool) (c s : Int) (hc : p c = true) :
    rowsOf ((raw.filter (fun r => p r.1.cycle)).map Prod.fst) c s = rowsOf (raw.map Prod.fst) c s := by
  unfold rowsOf
  induction raw with
  | nil => rfl
  | cons r raw ih =>
    by_cases h : p r.1.cycle = true
    · simp only [List.filter_cons, h, if_true, List.map_cons]
      rw [ih]
    · have hne : r.1.cycle ≠ c := by rintro rfl; exact h hc
      simp only [List.filter_cons, h, List.map_cons, hne, decide_false, Bool.false_and]
      exact ih

theorem anyWaveform_iff (raw : List WfRow) (p : Int → Bool) (hasWf chg : Bool) :
    anyWaveform hasWf chg (raw.filter (fun r => p r.1.cycle)) = true ↔
      hasWf = true ∧ HasWaveform (fun g => stepIsChgState chg true g = true) raw (fun c => p c = true) := by
  have hmap : ∀ c s, ((raw.filter (fun r => p r.1.cycle)).filter
      (fun q => decide (q.1.cycle = c) && decide (q.1.step = some s))).map Prod.fst =
      rowsOf ((raw.filter (fun r => p r.1.cycle)).map Prod.fst) c s := by
    intro c s
    unfold rowsOf
    rw [List.filter_map]
    rfl
  unfold anyWaveform HasWaveform
  rw [List.any_eq_true]
  constructor
  · rintro ⟨r, hr, h⟩
    rcases hs : r.1.step with _ | s
    · rw [hs] at h; cases h
    · rw [hs] at h
      simp only [stepIsWaveform] at h
      cases hasWf with
      | false => cases h
      | true =>
        simp only [if_true, Bool.and_eq_true, hmap] at h
        have hpc := (List.mem_filter.mp hr).2
        rw [rowsOf_regular _ _ _ _ hpc] at h
        obtain ⟨h1, h2⟩ := h
        rw [List.any_eq_true] at h2
        obtain ⟨q, hq, hq2⟩ := h2
        obtain ⟨hq3, hq4⟩ := List.mem_filter.mp hq
        simp only [Bool.and_eq_true, decide_eq_true_eq] at hq4
        exact ⟨rfl, r.1.cycle, s, hpc, h1, q, (List.mem_filter.mp hq3).1, hq4.1, hq4.2, hq2⟩
  · rintro ⟨rfl, c, s, hpc, hdir, r, hr, hrc, hrs, hw⟩
    have hr' : r ∈ raw.filter (fun r => p r.1.cycle) := List.mem_filter.mpr ⟨hr, by rw [hrc]; exact hpc⟩
    refine ⟨r, hr', ?_⟩
    rw [hrs]
    simp only [stepIsWaveform, if_true, Bool.and_eq_true, hmap]
    rw [hrc, rowsOf_regular _ _ _ _ hpc]
    refine ⟨hdir, ?_⟩
    rw [List.any_eq_true]
    exact ⟨r, List.mem_filter.mpr ⟨hr', by simp [hrc, hrs]⟩, hw⟩

/-- the cycles that are not diagnostic -/
def regular (diag : Option (List Int)) (c : Int) : Prop := ∀ ix, diag = some ix → c ∉ ix

/-- a waveform of the direction occurs in a regular cycle -/
def Wave (raw : List WfRow) (hasWf : Bool) (diag : Option (List Int)) (chg : Bool) : Prop :=
  hasWf = true ∧ HasWaveform (fun g => stepIsChgState chg true g = true) raw (regular diag)

/-- the axis for steps of the direction: time as soon as a waveform occurs -/
def AxisFor (raw : List WfRow) (hasWf : Bool) (diag : Option (List Int)) (chargeAxis dischargeAxis : String)
    (chg : Bool) (axis : String) : Prop :=
  (Wave raw hasWf diag chg → axis = "test_time") ∧
  (¬ Wave raw hasWf diag chg → axis = if chg then chargeAxis else dischargeAxis)

theorem range_default (vr : Option (Rat × Rat)) : (match vr with
    | some v => v
    | none => ((28 : Rat) / 10, (35 : Rat) / 10)) = vr.getD (14/5, 7/2) := by
  cases vr with
  | none => norm_num
  | some v => rfl

theorem wave_iff (raw : List WfRow) (hasWf : Bool) (diag : Option (List Int)) (chg : Bool) :
    anyWaveform hasWf chg (match diag with
      | some ix => raw.filter (fun r => !ix.contains r.1.cycle)
      | none => raw) = true ↔ Wave raw hasWf diag chg := by
  cases diag with
  | none =>
    have := anyWaveform_iff raw (fun _ => true) hasWf chg
    simp only [List.filter_true] at this
    rw [this]
    unfold Wave regular HasWaveform
    simp
  | some ix =>
    have := anyWaveform_iff raw (fun c => !ix.contains c) hasWf chg
    simp only at this ⊢
    rw [this]
    unfold Wave regular HasWaveform
    simp

theorem parts {raw : List WfRow} {hasWf indet : Bool} {diag : Option (List Int)}
    {vr : Option (Rat × Rat)} {n : Nat} {ca da : String} {exclude : List Int} {out : List OutRow}
    (h : structuredCycles raw hasWf indet diag vr n ca da exclude = .ok out) :
    ∃ reg dAxis cAxis d c, (∀ x, x ∈ reg ↔ regular diag x ∧ ∃ q ∈ raw, q.1.cycle = x) ∧
      AxisFor raw hasWf diag ca da false dAxis ∧ AxisFor raw hasWf diag ca da true cAxis ∧
      interpolateStep (raw.map Prod.fst) indet (vr.getD (14/5, 7/2)) n "discharge" reg dAxis exclude = .ok d ∧
      interpolateStep (raw.map Prod.fst) indet (vr.getD (14/5, 7/2)) n "charge" reg cAxis exclude = .ok c ∧
      out = d ++ c := by
  have hax : ∀ chg : Bool, ∀ w : Bool, (w = true ↔ Wave raw hasWf diag chg) →
      AxisFor raw hasWf diag ca da chg (if w then "test_time" else (if chg then ca else da)) := by
    intro chg w hw
    refine ⟨fun h => by rw [hw.mpr h]; rfl, fun h => ?_⟩
    have : w = false := by
      rw [← Bool.not_eq_true]
      exact fun e => h (hw.mp e)
    rw [this]; rfl
  unfold structuredCycles interpolateCycles at h
  simp only at h
  split at h
  · cases h
  rename_i d hd
  split at h
  · cases h
  rename_i c hc
  refine ⟨_, _, _, d, c, ?_, hax false _ (wave_iff raw hasWf diag false), hax true _ (wave_iff raw hasWf diag true),
    by rw [← range_default]; exact hd, by rw [← range_default]; exact hc, (Except.ok.inj h).symm⟩
  intro x
  rw [mem_unique]
  cases diag with
  | none => simp [regular]
  | some ix =>
    simp only [regular, List.mem_map, List.mem_filter, Option.some.injEq, forall_eq']
    constructor
    · rintro ⟨q, ⟨⟨w, hw, rfl⟩, hq⟩, rfl⟩
      exact ⟨by simpa using hq, w, hw, rfl⟩
    · rintro ⟨hx, w, hw, rfl⟩
      exact ⟨w.1, ⟨⟨w, hw, rfl⟩, by simpa using hx⟩, rfl⟩

/-- C78, what every row is: it belongs to a charge or discharge step (as its step type says)
with at least two raw rows, of a regular cycle that is not excluded; its axis value is one of
the `n` evenly spaced values of the range of the axis of that direction (2.8 V to 3.5 V if no
voltage range is given, time if waveforms occur), also in the axis' own column; and every
other value is the piecewise
linear interpolation of that step's own readings. -/
theorem C78_rows (raw : List WfRow) (hasWf indet : Bool) (diag : Option (List Int))
    (vr : Option (Rat × Rat)) (n : Nat) (ca da : String) (exclude : List Int) (out : List OutRow)
    (hn : 2 ≤ n) (h : structuredCycles raw hasWf indet diag vr n ca da exclude = .ok out)
    (o : OutRow) (ho : o ∈ out) :
    ∃ (chg : Bool) (axis : String) (ax : Row → Option Rat) (k : Nat) (lo hi : Rat),
      o.stepType = kind chg ∧
      regular diag o.cycle ∧ o.cycle ∉ exclude ∧
      stepIsChgState chg indet (rowsOf (raw.map Prod.fst) o.cycle o.step) = true ∧
      2 ≤ (rowsOf (raw.map Prod.fst) o.cycle o.step).length ∧
      AxisFor raw hasWf diag ca da chg axis ∧ AxisColumn axis ax ∧ AxisPlace axis k ∧
      GridRange (raw.map Prod.fst) (rowsOf (raw.map Prod.fst) o.cycle o.step) (vr.getD (14/5, 7/2))
        axis lo hi ∧
      OnGrid lo hi n o.x ∧
      (∀ r, (rowsOf (raw.map Prod.fst) o.cycle o.step).head? = some r → o.vals.length = (cells r).length) ∧
      o.vals[k]? = some (some o.x) ∧
      (DistinctOn ax (rowsOf (raw.map Prod.fst) o.cycle o.step) → ∀ j w, j ≠ k → o.vals[j]? = some w →
        Interpolated ax (rowsOf (raw.map Prod.fst) o.cycle o.step) j o.x w) := by
  obtain ⟨reg, dAxis, cAxis, d, c, hreg, hda, hca, hd, hc, rfl⟩ := parts h
  have wid : ∀ (g : List Row) (k : Nat), k = width g → ∀ r, g.head? = some r → k = (cells r).length := by
    intro g k hk r hr
    match g, hr with
    | r' :: l, hr =>
      cases hr
      rw [hk]; exact width_rowsOf _ r l rfl
  rcases List.mem_append.mp ho with ho | ho
  · obtain ⟨h1, h2, h3, h4, h5, ax, k, lo, hi, h6, h6', h7, h8, h9, h9', h10⟩ := step_row (chg := false) hn hd o ho
    exact ⟨false, dAxis, ax, k, lo, hi, h1, ((hreg _).mp h2).1, h3, h4, h5, hda, h6, h6', h7, h8, wid _ _ h9, h9', h10⟩
  · obtain ⟨h1, h2, h3, h4, h5, ax, k, lo, hi, h6, h6', h7, h8, h9, h9', h10⟩ := step_row (chg := true) hn hc o ho
    exact ⟨true, cAxis, ax, k, lo, hi, h1, ((hreg _).mp h2).1, h3, h4, h5, hca, h6, h6', h7, h8, wid _ _ h9, h9', h10⟩

theorem structured_ok (raw : List WfRow) (hasWf indet : Bool) (diag : Option (List Int))
    (vr : Option (Rat × Rat)) (n : Nat) (ca da : String) (exclude : List Int) (axis : Bool → String)
    (haxis : ∀ chg, AxisFor raw hasWf diag ca da chg (axis chg)) :
    ∃ reg, (∀ x, x ∈ reg ↔ regular diag x ∧ ∃ q ∈ raw, q.1.cycle = x) ∧
      ((∃ out, structuredCycles raw hasWf indet diag vr n ca da exclude = .ok out) ↔
        (∃ o, interpolateStep (raw.map Prod.fst) indet (vr.getD (14/5, 7/2)) n
          (if false then "charge" else "discharge") reg (axis false) exclude = .ok o) ∧
        (∃ o, interpolateStep (raw.map Prod.fst) indet (vr.getD (14/5, 7/2)) n
          (if true then "charge" else "discharge") reg (axis true) exclude = .ok o)) := by
  have hw : ∀ chg : Bool, ∀ w : Bool, (w = true ↔ Wave raw hasWf diag chg) →
      axis chg = (if w then "test_time" else (if chg then ca else da)) := by
    intro chg w hw
    by_cases h : Wave raw hasWf diag chg
    · rw [(haxis chg).1 h, hw.mpr h]; rfl
    · rw [(haxis chg).2 h, if_neg (fun e => h (hw.mp e))]
  rw [hw false _ (wave_iff raw hasWf diag false), hw true _ (wave_iff raw hasWf diag true), ← range_default]
  clear hw haxis
  unfold structuredCycles interpolateCycles
  refine ⟨unique (List.map Row.cycle (match diag with
      | some ix => (raw.map Prod.fst).filter (fun r : Row => !ix.contains r.cycle)
      | none => raw.map Prod.fst)), ?_, ⟨?_, ?_⟩⟩
  rotate_left
  · rintro ⟨out, h⟩
    simp only at h
    split at h
    · cases h
    rename_i d hd
    split at h
    · cases h
    rename_i c hc
    exact ⟨⟨d, hd⟩, ⟨c, hc⟩⟩
  · rintro ⟨⟨d, hd⟩, ⟨c, hc⟩⟩
    simp only
    split
    · rename_i e he
      cases (hd.symm.trans he)
    split
    · rename_i e he
      cases (hc.symm.trans he)
    exact ⟨_, rfl⟩
  intro x
  rw [mem_unique]
  cases diag with
  | none => simp [regular]
  | some ix =>
    simp only [regular, List.mem_map, List.mem_filter, Option.some.injEq, forall_eq']
    constructor
    · rintro ⟨q, ⟨⟨w, hw, rfl⟩, hq⟩, rfl⟩
      exact ⟨by simpa using hq, w, hw, rfl⟩
    · rintro ⟨hx, w, hw, rfl⟩
      exact ⟨w.1, ⟨⟨w, hw, rfl⟩, by simpa using hx⟩, rfl⟩

/-- C78, acceptance: with known axes the interpolation succeeds exactly when every step of
two or more rows in a regular cycle that is not excluded has a value on the axis of its
direction in every row. -/
theorem C78_accepts (raw : List WfRow) (hasWf indet : Bool) (diag : Option (List Int))
    (vr : Option (Rat × Rat)) (n : Nat) (ca da : String) (exclude : List Int)
    (axis : Bool → String) (ax : Bool → Row → Option Rat)
    (haxis : ∀ chg, AxisFor raw hasWf diag ca da chg (axis chg)) (hax : ∀ chg, AxisColumn (axis chg) (ax chg)) :
    (∃ out, structuredCycles raw hasWf indet diag vr n ca da exclude = .ok out) ↔
      ∀ chg c s, regular diag c → c ∉ exclude →
        stepIsChgState chg indet (rowsOf (raw.map Prod.fst) c s) = true →
        2 ≤ (rowsOf (raw.map Prod.fst) c s).length →
        ∀ r ∈ rowsOf (raw.map Prod.fst) c s, ax chg r ≠ none := by
  obtain ⟨reg, hreg, hk⟩ := structured_ok raw hasWf indet diag vr n ca da exclude axis haxis
  rw [hk, C12_accepts _ _ _ _ _ _ _ _ (hax false), C12_accepts _ _ _ _ _ _ _ _ (hax true)]
  have hin : ∀ c s, 2 ≤ (rowsOf (raw.map Prod.fst) c s).length → ∃ q ∈ raw, q.1.cycle = c := by
    intro c s h2
    match hg : rowsOf (raw.map Prod.fst) c s with
    | [] => rw [hg] at h2; simp at h2
    | r :: _ =>
      have hr : r ∈ rowsOf (raw.map Prod.fst) c s := by rw [hg]; simp
      obtain ⟨h5, h6⟩ := List.mem_filter.mp hr
      obtain ⟨w, hw, rfl⟩ := List.mem_map.mp h5
      simp only [Bool.and_eq_true, decide_eq_true_eq] at h6
      exact ⟨w, hw, h6.1⟩
  constructor
  · rintro ⟨h1, h2⟩ chg c s hr hx hd hl
    cases chg with
    | false => exact h1 c s ((hreg c).mpr ⟨hr, hin c s hl⟩) hx hd hl
    | true => exact h2 c s ((hreg c).mpr ⟨hr, hin c s hl⟩) hx hd hl
  · intro h
    exact ⟨fun c s hc hx => h false c s ((hreg c).mp hc).1 hx, fun c s hc hx => h true c s ((hreg c).mp hc).1 hx⟩

/-- C12, how many rows: for a requested cycle `c` and a step `s` the result has exactly `n`
rows if the step is of the requested kind and has at least two raw rows, and none
otherwise, provided the interpolation range of the step is not a single point. -/
theorem C12_count (raw : List Row) (indet chg : Bool) (v : Rat × Rat) (n : Nat)
    (reg : List Int) (axis : String) (exclude : List Int) (out : List OutRow) (hn : 2 ≤ n)
    (h : interpolateStep raw indet v n (if chg then "charge" else "discharge") reg axis exclude = .ok out)
    (c s : Int) (hc : c ∈ reg) (hx : c ∉ exclude)
    (hr : ∀ lo hi, GridRange raw (rowsOf raw c s) v axis lo hi → lo ≠ hi) :
    out.countP (fun r => decide (r.cycle = c) && decide (r.step = s)) =
      if stepIsChgState chg indet (rowsOf raw c s) = true ∧ 2 ≤ (rowsOf raw c s).length then n else 0 := by
  rw [rowsOf_eq]
  refine count_of_range raw indet chg v n reg axis exclude out hn h c s hc hx ?_
  rintro ⟨lo, hi⟩ hrr
  rw [← rowsOf_eq] at hrr
  exact hr lo hi (range_of hrr).2

/-- C78, nothing is lost: every step of the given direction with at least two raw rows in a
regular cycle that is not excluded is present with exactly `n` rows, unless the range of its
axis is a single point; other steps are absent. -/
theorem C78_count (raw : List WfRow) (hasWf indet : Bool) (diag : Option (List Int))
    (vr : Option (Rat × Rat)) (n : Nat) (ca da : String) (exclude : List Int) (out : List OutRow)
    (hn : 2 ≤ n) (h : structuredCycles raw hasWf indet diag vr n ca da exclude = .ok out)
    (chg : Bool) (axis : String) (haxis : AxisFor raw hasWf diag ca da chg axis) (c s : Int)
    (hreg : regular diag c) (hex : c ∉ exclude)
    (hr : ∀ lo hi, GridRange (raw.map Prod.fst) (rowsOf (raw.map Prod.fst) c s) (vr.getD (14/5, 7/2))
      axis lo hi → lo ≠ hi) :
    out.countP (fun o => decide (o.stepType = kind chg) &&
        (decide (o.cycle = c) && decide (o.step = s))) =
      if stepIsChgState chg indet (rowsOf (raw.map Prod.fst) c s) = true ∧
        2 ≤ (rowsOf (raw.map Prod.fst) c s).length then n else 0 := by
  obtain ⟨reg, dAxis, cAxis, d, k, hmem, hda, hca, hd, hk, rfl⟩ := parts h
  have same : ∀ b a1 a2, AxisFor raw hasWf diag ca da b a1 → AxisFor raw hasWf diag ca da b a2 → a1 = a2 := by
    intro b a1 a2 h1 h2
    by_cases hw : Wave raw hasWf diag b
    · rw [h1.1 hw, h2.1 hw]
    · rw [h1.2 hw, h2.2 hw]
  by_cases hq : ∃ q ∈ raw, q.1.cycle = c
  · have hcreg : c ∈ reg := (hmem c).mpr ⟨hreg, hq⟩
    rw [List.countP_append]
    have zero : ∀ (l : List OutRow) (st : String), (∀ o ∈ l, o.stepType = st) → ∀ w : String, st ≠ w →
        l.countP (fun o => decide (o.stepType = w) && (decide (o.cycle = c) && decide (o.step = s))) = 0 := by
      intro l st hl w hw
      rw [List.countP_eq_zero]
      intro o ho
      rw [hl o ho]
      simp [hw]
    have keep : ∀ (l : List OutRow) (st : String), (∀ o ∈ l, o.stepType = st) →
        l.countP (fun o => decide (o.stepType = st) && (decide (o.cycle = c) && decide (o.step = s))) =
        l.countP (fun o => decide (o.cycle = c) && decide (o.step = s)) := by
      intro l st hl
      apply List.countP_congr
      intro o ho
      simp [hl o ho]
    have td : ∀ o ∈ d, o.stepType = "discharge" := fun o ho => (C12_only_requested _ _ _ _ _ _ _ _ _ hd o ho).2.2.2
    have tk : ∀ o ∈ k, o.stepType = "charge" := fun o ho => (C12_only_requested _ _ _ _ _ _ _ _ _ hk o ho).2.2.2
    have hr' : ∀ r, axisRange (raw.map Prod.fst) (stepOf (raw.map Prod.fst) c s) axis (vr.getD (14/5, 7/2)) = .ok r →
        r.1 ≠ r.2 := by
      rintro ⟨lo, hi⟩ hrr
      rw [← rowsOf_eq] at hrr
      exact hr lo hi (range_of hrr).2
    rw [rowsOf_eq]
    cases chg with
    | false =>
      rw [same false axis dAxis haxis hda] at hr'
      have := count_of_range _ indet false _ n _ _ _ _ hn hd c s hcreg hex hr'
      rw [zero k (kind true) tk (kind false) (by decide), keep d (kind false) td, Nat.add_zero]
      exact this
    | true =>
      rw [same true axis cAxis haxis hca] at hr'
      have := count_of_range _ indet true _ n _ _ _ _ hn hk c s hcreg hex hr'
      rw [zero d (kind false) td (kind true) (by decide), Nat.zero_add]
      exact (keep k (kind true) tk).trans this
  · have h0 : rowsOf (raw.map Prod.fst) c s = [] := by
      unfold rowsOf
      rw [List.filter_eq_nil_iff]
      intro r hr hh
      rw [List.mem_map] at hr
      obtain ⟨w, hw, rfl⟩ := hr
      simp only [Bool.and_eq_true, decide_eq_true_eq] at hh
      exact hq ⟨w, hw, hh.1⟩
    rw [h0, if_neg (c := _ ∧ _) (fun h => by simp at h)]
    rw [List.countP_eq_zero]
    intro o ho hh
    simp only [Bool.and_eq_true, decide_eq_true_eq] at hh
    have : o.cycle ∈ reg := by
      rcases List.mem_append.mp ho with ho | ho
      · exact (C12_only_requested _ _ _ _ _ _ _ _ _ hd o ho).1
      · exact (C12_only_requested _ _ _ _ _ _ _ _ _ hk o ho).1
    rw [hh.2.1] at this
    exact hq ((hmem c).mp this).2

/-- a driving discharge recorded with waveform capacities, and a plain charge -/
def exWave : List WfRow :=
  [({ cycle := 1, step := some 1, charge := some 0, discharge := some 0, time := some 0, voltage := some 3 }, false),
   ({ cycle := 1, step := some 1, charge := some 1, discharge := some 0, time := some 10, voltage := some 4 }, false),
   ({ cycle := 1, step := some 1, charge := some 2, discharge := some 0, time := some 20, voltage := some (9/2) }, false),
   ({ cycle := 1, step := some 2, charge := some 2, discharge := some 0, time := some 20, voltage := some 4 }, true),
   ({ cycle := 1, step := some 2, charge := some 2, discharge := some 1, time := some 30, voltage := some 3 }, true),
   ({ cycle := 1, step := some 2, charge := some 2, discharge := some 2, time := some 40, voltage := some (7/2) }, false)]

example : (structuredCycles exWave true true none none 3 "charge_capacity" "voltage" []).map
      (List.map (fun r => (r.stepType, r.x, r.vals))) =
    .ok [("discharge", 20, [some 20, some 4, some 2, some 0]), ("discharge", 30, [some 30, some 3, some 2, some 1]),
      ("discharge", 40, [some 40, some (7/2), some 2, some 2]), ("charge", 0, [some 0, some 3, some 0, some 0]),
      ("charge", 1, [some 10, some 4, some 1, some 0]), ("charge", 2, [some 20, some (9/2), some 2, some 0])] := by
  decide +kernel

example : (structuredCycles exWave false true none none 3 "charge_capacity" "voltage" []).map
      (fun l => (l.map OutRow.x).take 3) = .ok [14/5, 63/20, 7/2] := by decide +kernel

example : Wave exWave true none false :=
  ⟨rfl, 1, 2, by simp [regular], by decide +kernel, _, List.mem_of_getElem? (i := 3) rfl, rfl, rfl, rfl⟩

example : DistinctOn Row.time (rowsOf (exWave.map Prod.fst) 1 2) := by
  unfold DistinctOn; decide +kernel

end Beep.Props.CyclesInterp
