import Verif.Proof.Parsers
/-
Theorems about the cycler file readers: C41-C44, C67.
-/
namespace Beep.Props.Parsers
open Beep Text Pandas Parsers Spec.Parsers Proof.Parsers

/-! ### Splicing (C41) -/

/-- C41: in the spliced file no counter decreases -/
theorem C41_monotone {α : Type} (d₁ d₂ out : List (Row α)) (h1 : GoodFile d₁) (h2 : GoodFile d₂)
    (h : splice d₁ d₂ = .ok out) : ∀ c, NeverDecreases out c := by
  intro c
  unfold splice columnIncrement at h
  cases hf : d₂.head? with
  | none => simp [hf, bind, Except.bind] at h
  | some first =>
    cases hl : d₁.getLast? with
    | none => simp [hf, hl, bind, Except.bind] at h
    | some last =>
      simp only [hf, hl, bind, Except.bind] at h
      cases h
      apply never_append (h1 c).1
      · intro i a b ha hb
        simp only [List.getElem?_map, Option.map_eq_some_iff] at ha hb
        obtain ⟨a', ha, rfl⟩ := ha
        obtain ⟨b', hb, rfl⟩ := hb
        have := (h2 c).1 i a' b' ha hb
        show a'.counter c + _ ≤ b'.counter c + _
        linarith
      · intro l f hl' hf'
        cases Option.some.inj (hl.symm.trans hl')
        rw [List.head?_map, hf] at hf'
        simp only [Option.map_some, Option.some.injEq] at hf'
        subst hf'
        show last.counter c ≤ first.counter c + shift last first c
        unfold shift
        have h0 := (h2 c).2 first (List.mem_of_mem_head? hf)
        split
        · linarith
        · rename_i hn
          have := not_lt.mp hn
          linarith

/-- C41: the rows of the first file come first, unchanged; then as many rows as the second file has,
each with its other columns, and each counter moved by the same amount throughout -/
theorem C41_rows {α : Type} (d₁ d₂ out : List (Row α)) (h : splice d₁ d₂ = .ok out) :
    ∃ (d₂' : List (Row α)) (move : Col → Rat), out = d₁ ++ d₂' ∧ d₂'.map Row.rest = d₂.map Row.rest ∧
      ∀ c, d₂'.map (fun r => r.counter c) = d₂.map (fun r => r.counter c + move c) := by
  unfold splice columnIncrement at h
  cases hf : d₂.head? with
  | none => simp [hf, bind, Except.bind] at h
  | some first =>
    cases hl : d₁.getLast? with
    | none => simp [hf, hl, bind, Except.bind] at h
    | some last =>
      simp only [hf, hl, bind, Except.bind] at h
      cases h
      refine ⟨_, shift last first, rfl, ?_, ?_⟩
      · rw [List.map_map]; rfl
      · intro c; rw [List.map_map]; rfl

/-- C41: a file that goes on counting from where the first one stopped is not renumbered -/
theorem C41_continuing {α : Type} (d₁ d₂ : List (Row α)) (last first : Row α)
    (hl : d₁.getLast? = some last) (hf : d₂.head? = some first)
    (h : ∀ c, last.counter c ≤ first.counter c) : splice d₁ d₂ = .ok (d₁ ++ d₂) := by
  unfold splice columnIncrement
  simp only [hf, hl, bind, Except.bind]
  have : shift last first = fun _ => 0 := by
    funext c
    unfold shift
    rw [if_neg (not_lt.mpr (h c))]
  simp [this]

/-- C41: two files with rows are always spliced; a file without rows is refused -/
theorem C41_accepts {α : Type} (d₁ d₂ : List (Row α)) :
    (∃ out, splice d₁ d₂ = .ok out) ↔ d₁ ≠ [] ∧ d₂ ≠ [] := by
  unfold splice columnIncrement
  cases d₂ with
  | nil => simp [bind, Except.bind]
  | cons first l =>
    cases hl : d₁.getLast? with
    | none => simp [bind, Except.bind, List.getLast?_eq_none_iff.mp hl]
    | some last =>
      have : d₁ ≠ [] := by rintro rfl; simp at hl
      simp [bind, Except.bind, this]

/-- a file whose counters are all `i` -/
private def flat (i : Rat) : Row Unit := ⟨fun _ => i, ()⟩

/-- C41 applies: a file that ends at 5 followed by a file that restarts at 0 -/
example : GoodFile [flat 3, flat 5] ∧ GoodFile [flat 0, flat 2] ∧
    (splice [flat 3, flat 5] [flat 0, flat 2]).toOption.map (·.map (fun r => r.counter .cyc)) =
      some [3, 5, 5, 7] := by
  refine ⟨?_, ?_, by decide +kernel⟩ <;> intro c <;> refine ⟨?_, by simp [flat]⟩ <;>
    intro i a b ha hb <;> match i, ha, hb with
    | 0, ha, hb => simp [flat] at ha hb; subst ha hb; norm_num
    | 1, ha, hb => simp at hb
    | n + 2, ha, hb => simp at hb

/-! ### Neware test time (C42) -/

/-- C42: one test time per record, the first is 0 -/
theorem C42_starts (t : Rat) (ts : List Rat) :
    (testTime (t :: ts)).length = (t :: ts).length ∧ (testTime (t :: ts))[0]? = some 0 := by
  simp [testTime, length_testTimeFrom]

/-- C42: between consecutive records the test time grows by the elapsed time if that is positive, and
stays put when the record time jumps back -/
theorem C42_increment (ts : List Rat) (i : Nat) (s t x y : Rat) (hs : ts[i]? = some s)
    (ht : ts[i + 1]? = some t) (hx : (testTime ts)[i]? = some x) (hy : (testTime ts)[i + 1]? = some y) :
    (s ≤ t → y - x = t - s) ∧ (t ≤ s → y = x) := by
  cases ts with
  | nil => simp at hs
  | cons u ts =>
    have h := testTimeFrom_step u 0 ts i x y s t hx hy hs ht
    constructor
    · intro hle
      rw [if_neg (by linarith)] at h
      linarith
    · intro hle
      split at h
      · linarith
      · rename_i hn
        have : t - s = 0 := by linarith
        linarith

/-- C42: the test time never decreases -/
theorem C42_monotone (ts : List Rat) : (testTime ts).Pairwise (· ≤ ·) := by
  cases ts with
  | nil => simp [testTime]
  | cons t ts =>
    suffices h : ∀ (ts : List Rat) (p a : Rat), (a :: testTimeFrom p a ts).Pairwise (· ≤ ·) from h ts t 0
    intro ts
    induction ts with
    | nil => intro p a; simp [testTimeFrom]
    | cons u ts ih =>
      intro p a
      simp only [testTimeFrom]
      have := ih u (a + (if u - p < 0 then 0 else u - p))
      refine List.pairwise_cons.mpr ⟨?_, this⟩
      have hle : a ≤ a + (if u - p < 0 then 0 else u - p) := by
        split
        · linarith
        · rename_i h; linarith [not_lt.mp h]
      intro x hx
      rcases List.mem_cons.mp hx with rfl | hx
      · exact hle
      · exact le_trans hle ((List.pairwise_cons.mp this).1 x hx)

/-- C42 applies: a clock that restarts after 10 seconds -/
example : testTime [0, 4, 10, 0, 3] = [0, 4, 10, 10, 13] := by decide +kernel

/-! ### Neware lines (C67) -/

/-- C67: the record file has one line per record line of the input, in order, each carrying the
numbers of the last cycle line and of the last step line before it -/
theorem C67_records (irIndex : Nat) (ls out : List Str) (h : routeLines irIndex initState ls = .ok out) :
    Records ls out.length ∧
    ∀ pre line post n, ls = pre ++ line :: post → IsRecordLine line → Records pre n →
      ∃ o c s, out[n]? = some o ∧ IsLast IsCycleLine pre c ∧ IsLast IsStepLine pre s ∧
        Carries irIndex c s line o := by
  have := routeLines_spec ls [] initState out (seen_init irIndex) h
  simpa using this

/-- C67: a file is read whenever its lines have enough fields and every record comes after a cycle
line and a step line -/
theorem C67_accepts (irIndex : Nat) (ls : List Str)
    (h1 : ∀ l ∈ ls, IsStepLine l → irIndex < (fields l).length ∧ 1 < (fields l).length)
    (h2 : ∀ l ∈ ls, IsRecordLine l → 22 < (fields l).length)
    (h3 : ∀ pre line post, ls = pre ++ line :: post → IsRecordLine line →
      (∃ c ∈ pre, IsCycleLine c) ∧ (∃ s ∈ pre, IsStepLine s)) :
    ∃ out, routeLines irIndex initState ls = .ok out :=
  routeLines_ok ls [] initState (seen_init irIndex) h1 h2 (by simpa using h3)

/-- C67: a record before any cycle or step line is refused -/
theorem C67_refuses (irIndex : Nat) (pre : List Str) (line : Str) (post : List Str)
    (hl : IsRecordLine line)
    (h : (∀ c ∈ pre, ¬ IsCycleLine c) ∨ (∀ s ∈ pre, ¬ IsStepLine s)) (out : List Str) :
    routeLines irIndex initState (pre ++ line :: post) ≠ .ok out := by
  intro ho
  obtain ⟨-, h2⟩ := C67_records irIndex _ out ho
  have hn : ∀ l : List Str, ∃ n, Records l n := by
    intro l
    induction l with
    | nil => exact ⟨0, .nil⟩
    | cons a l ih =>
      obtain ⟨n, hn⟩ := ih
      by_cases ha : IsRecordLine a
      · exact ⟨_, .yes ha hn⟩
      · exact ⟨_, .no ha hn⟩
  obtain ⟨n, hn⟩ := hn pre
  obtain ⟨-, c, s, -, ⟨hc, p1, q1, e1, -⟩, ⟨hs, p2, q2, e2, -⟩, -⟩ := h2 pre line post n rfl hl hn
  rcases h with h | h
  · exact h c (by rw [e1]; simp) hc
  · exact h s (by rw [e2]; simp) hs

/-- C67 applies: cycle 7, step 2, one record -/
example : routeLines 2 initState ["7,x".toList, ",\"2\",r".toList, ",,a,,,,,,,,,,,,,,,,,,,,b".toList] =
    .ok ["7,\"2\",a,,,,,,,,,,,,,,,,,,,,r".toList] := by decide +kernel

/-! ### Battery Archive step time (C43) -/

/-- C43, partial: in a table of two or more rows the step time of a row is the test time since the
first row of its step.  Missing: a last row that begins a step of its own, and tables of one row. -/
theorem C43_step_time_partial (rows : List BaRow) (hn : 2 ≤ rows.length) :
    ∃ ts, stepTimes rows = .ok ts ∧ ts.length = rows.length ∧
      ∀ (i j : Nat) (b : BaRow), rows[i]? = some b → StepStart rows j i →
        ¬ (i + 1 = rows.length ∧ LastStarts rows) →
        ∃ a, rows[j]? = some a ∧ ts[i]? = some (b.time - a.time) := by
  cases rows with
  | nil => simp at hn
  | cons r rs =>
    have hrs : rs ≠ [] := by rintro rfl; simp at hn
    obtain ⟨l, hl, he⟩ := stepTimes_eq r rs hrs
    have hlen : (r.time :: startsFrom (decideStepIndex r.current) r.time rs).length = rs.length + 1 := by
      simp [length_startsFrom]
    refine ⟨_, he, by simp [length_startsFrom], ?_⟩
    intro i j b hb hs hlast
    have hi : i < rs.length + 1 := by simpa using (List.getElem?_eq_some_iff.mp hb).1
    have hb' : ((r :: rs).map BaRow.time)[i]? = some b.time := by
      rw [List.getElem?_map, hb]; rfl
    have fin : ∀ a : BaRow, ((r.time :: startsFrom (decideStepIndex r.current) r.time rs).dropLast ++ [l])[i]? =
        some a.time → (List.zipWith (· - ·) ((r :: rs).map BaRow.time)
          ((r.time :: startsFrom (decideStepIndex r.current) r.time rs).dropLast ++ [l]))[i]? =
          some (b.time - a.time) := by
      intro a ha
      rw [List.getElem?_zipWith, hb', ha]
    by_cases hi' : i < rs.length
    · obtain ⟨a, ha, hx⟩ := starts_spec r rs i j b hs hb
      refine ⟨a, ha, fin a ?_⟩
      rw [List.getElem?_append_left (by rw [List.length_dropLast, hlen]; omega), List.getElem?_dropLast]
      simp only [hlen, Nat.add_sub_cancel, hi', if_true]
      exact hx
    · have hie : i = rs.length := by omega
      have hpos : 0 < rs.length := List.length_pos_of_ne_nil hrs
      have hji : j ≠ i := by
        intro e
        apply hlast
        refine ⟨by simp; omega, ?_⟩
        unfold LastStarts
        have : (r :: rs).length - 1 = i := by simp; omega
        rw [this]
        rw [e] at hs
        exact hs
      obtain ⟨p, hp⟩ : ∃ p, (r :: rs)[i - 1]? = some p :=
        ⟨_, List.getElem?_eq_getElem (by simp; omega)⟩
      have hs' : StepStart (r :: rs) j (i - 1) := by
        have h1 := hs.1
        refine ⟨by omega, ?_, hs.2.2⟩
        intro k a b' h1 h2 h3 h4
        rw [hp] at h4
        cases h4
        rw [hs.2.1 k a b h1 (by omega) h3 hb]
        exact (hs.2.1 (i - 1) p b (by omega) (by omega) hp hb).symm
      obtain ⟨a, ha, hx⟩ := starts_spec r rs (i - 1) j p hs' hp
      refine ⟨a, ha, fin a ?_⟩
      rw [List.getElem?_append_right (by rw [List.length_dropLast, hlen]; omega), List.length_dropLast, hlen,
        hie, Nat.add_sub_cancel, Nat.sub_self, List.getElem?_cons_zero, ← hl, List.getLast?_eq_getElem?,
        List.length_dropLast, hlen, Nat.add_sub_cancel, List.getElem?_dropLast]
      rw [hlen, if_pos (by omega), ← hie]
      exact hx

/-- C43 is violated: when the last row begins a step of its own, it is given the time since the start
of the step before -/
theorem C43_last_row_violated (rows : List BaRow) (hn : 2 ≤ rows.length) (hlast : LastStarts rows)
    (j : Nat) (hj : StepStart rows j (rows.length - 2)) :
    ∃ ts a b, stepTimes rows = .ok ts ∧ rows[j]? = some a ∧ rows[rows.length - 1]? = some b ∧
      ts[rows.length - 1]? = some (b.time - a.time) ∧ activity a.current ≠ activity b.current := by
  cases rows with
  | nil => simp at hn
  | cons r rs =>
    have hrs : rs ≠ [] := by rintro rfl; simp at hn
    have hpos : 0 < rs.length := List.length_pos_of_ne_nil hrs
    obtain ⟨l, hl, he⟩ := stepTimes_eq r rs hrs
    have hlen : (r.time :: startsFrom (decideStepIndex r.current) r.time rs).length = rs.length + 1 := by
      simp [length_startsFrom]
    have e1 : (r :: rs).length - 1 = rs.length := by simp
    have e2 : (r :: rs).length - 2 = rs.length - 1 := by simp only [List.length_cons]; omega
    unfold LastStarts at hlast
    rw [e1] at hlast
    rw [e2] at hj
    rw [e1]
    obtain ⟨b, hb⟩ : ∃ b, (r :: rs)[rs.length]? = some b := ⟨_, List.getElem?_eq_getElem (by simp)⟩
    obtain ⟨p, hp⟩ : ∃ p, (r :: rs)[rs.length - 1]? = some p :=
      ⟨_, List.getElem?_eq_getElem (by simp only [List.length_cons]; omega)⟩
    obtain ⟨a, ha, hx⟩ := starts_spec r rs (rs.length - 1) j p hj hp
    refine ⟨_, a, b, he, ha, hb, ?_, ?_⟩
    · have hb' : ((r :: rs).map BaRow.time)[rs.length]? = some b.time := by
        rw [List.getElem?_map, hb]; rfl
      have : ((r.time :: startsFrom (decideStepIndex r.current) r.time rs).dropLast ++ [l])[rs.length]? =
          some a.time := by
        rw [List.getElem?_append_right (by rw [List.length_dropLast, hlen]; omega), List.length_dropLast, hlen,
          Nat.add_sub_cancel, Nat.sub_self, List.getElem?_cons_zero, ← hl, List.getLast?_eq_getElem?,
          List.length_dropLast, hlen, Nat.add_sub_cancel, List.getElem?_dropLast, hlen, if_pos (by omega)]
        exact hx
      rw [List.getElem?_zipWith, hb', this]
    · have h1 := hlast.2.2 (rs.length - 1) p b (by omega) hp hb
      have h2 := hj.2.1 j a p (le_refl _) hj.1 ha hp
      rw [h2]
      exact h1

/-- C43 is violated: a table of one row is refused -/
theorem C43_one_row_violated (r : BaRow) : stepTimes [r] = .error .indexError := by
  simp [stepTimes, changes, changesFrom, repeats]

/-- C43 applies: rest, charge, charge, rest, rest -/
example : stepTimes [⟨5, 0⟩, ⟨9, 1⟩, ⟨12, 1⟩, ⟨20, 0⟩, ⟨21, 0⟩] = .ok [0, 0, 3, 0, 1] := by decide +kernel

/-- C43 fails: the last row begins a charge but is given 4 seconds -/
example : stepTimes [⟨5, 0⟩, ⟨9, 1⟩] = .ok [0, 4] := by decide +kernel

/-! ### Novonix (C44) -/

/-- C44: files with only known step numbers are read, with one output row per row -/
theorem C44_accepts (rows : List NvRow) :
    (∃ out, novonix rows = .ok out) ↔
      ∀ r ∈ rows, RestStep r.step ∨ ChargeStep r.step ∨ DischargeStep r.step := by
  unfold novonix
  simp only [← known_iff]
  by_cases h : rows.all (fun r => (stepName r.step).isSome) = true
  · rw [if_pos h]
    simpa using h
  · rw [if_neg h]
    simpa using h

/-- C44: charge rows carry the recorded values as charge and no discharge -/
theorem C44_charge_rows (rows : List NvRow) (out : List NvOut) (h : novonix rows = .ok out) (i : Nat)
    (r : NvRow) (o : NvOut) (hr : rows[i]? = some r) (ho : out[i]? = some o) (hc : ChargeStep r.step) :
    o.chargeCapacity = r.capacity ∧ o.chargeEnergy = r.energy ∧ o.dischargeCapacity = none ∧
      o.dischargeEnergy = none := by
  unfold novonix at h
  split at h
  · cases h
    rw [List.getElem?_map, hr] at ho
    cases ho
    simp [columns, (charges_iff r).mpr hc]
  · cases h

/-- C44: discharge rows carry no charge -/
theorem C44_discharge_rows (rows : List NvRow) (out : List NvOut) (h : novonix rows = .ok out) (i : Nat)
    (r : NvRow) (o : NvOut) (hr : rows[i]? = some r) (ho : out[i]? = some o) (hd : DischargeStep r.step) :
    o.chargeCapacity = none ∧ o.chargeEnergy = none := by
  have hc : ¬ r.charges = true := by
    rw [charges_iff]; unfold ChargeStep DischargeStep at *; omega
  unfold novonix at h
  split at h
  · cases h
    rw [List.getElem?_map, hr] at ho
    cases ho
    simp only [columns, hc, Bool.false_eq_true, if_false]
    constructor <;> split <;> rfl
  · cases h

theorem reference_charge (rows : List NvRow) (q : NvRow → Option Rat) (c : Int) (m : Rat)
    (h : EndOfCharge rows q c m) : reference rows q c = some m := by
  unfold reference
  obtain ⟨⟨r, hr, ⟨hcy, hcs⟩, hq⟩, hmax⟩ := h
  rw [if_neg]
  · unfold chargeMax
    apply highest_maxN
    refine ⟨⟨r, hr, by simp [hcy, (charges_iff r).mpr hcs], hq⟩, ?_⟩
    intro r' hr' hp
    simp only [decide_eq_true_eq] at hp
    exact hmax r' hr' ⟨hp.1, (charges_iff r').mp hp.2⟩
  · intro hall
    have := List.all_eq_true.mp hall r (List.mem_filter.mpr ⟨hr, by simp [hcy]⟩)
    rw [(charges_iff r).mpr hcs] at this
    exact absurd this (by decide)

/-- C44: in a cycle with a charge, the discharge capacity is the capacity at the end of the charge
minus the recorded one, and the same for the energy.  Missing: discharge-only cycles, see
`C44_discharge_only_energy_violated`. -/
theorem C44_discharge_partial (rows : List NvRow) (out : List NvOut) (h : novonix rows = .ok out)
    (i : Nat) (r : NvRow) (o : NvOut) (hr : rows[i]? = some r) (ho : out[i]? = some o)
    (hd : DischargeStep r.step) :
    (∀ m v, EndOfCharge rows NvRow.capacity r.cycle m → r.capacity = some v →
      o.dischargeCapacity = some (m - v)) ∧
    (∀ m v, EndOfCharge rows NvRow.energy r.cycle m → r.energy = some v →
      o.dischargeEnergy = some (m - v)) := by
  have hc : ¬ r.charges = true := by
    rw [charges_iff]; unfold ChargeStep DischargeStep at *; omega
  have hrest : ¬ stepName r.step = some .rest := by
    rw [rest_iff]; unfold RestStep DischargeStep at *; omega
  unfold novonix at h
  split at h
  · cases h
    rw [List.getElem?_map, hr] at ho
    cases ho
    constructor
    · intro m v hm hv
      simp only [columns, hc, hrest, if_false]
      rw [reference_charge rows _ _ m hm, hv]; rfl
    · intro m v hm hv
      simp only [columns, hc, hrest, if_false]
      rw [reference_charge rows _ _ m hm, hv]; rfl
  · cases h

theorem reference_only (rows : List NvRow) (q : NvRow → Option Rat) (c : Int)
    (hno : ∀ r ∈ rows, r.cycle = c → ¬ ChargeStep r.step) (m : Rat)
    (h : Highest rows (fun r => r.cycle = c) NvRow.capacity m) : reference rows q c = some m := by
  unfold reference
  rw [if_pos]
  · apply highest_maxN
    refine ⟨?_, ?_⟩
    · obtain ⟨r, hr, hp, hq⟩ := h.1
      exact ⟨r, hr, by simp [hp], hq⟩
    · intro r hr hp
      exact h.2 r hr (by simpa using hp)
  · rw [List.all_eq_true]
    intro r hr
    obtain ⟨h1, h2⟩ := List.mem_filter.mp hr
    have := hno r h1 (by simpa using h2)
    rw [← charges_iff] at this
    simpa using this

/-- C44: in a cycle without a charge the discharge capacity is measured from the highest capacity
reading of the cycle -/
theorem C44_discharge_only_capacity (rows : List NvRow) (out : List NvOut) (h : novonix rows = .ok out)
    (i : Nat) (r : NvRow) (o : NvOut) (hr : rows[i]? = some r) (ho : out[i]? = some o)
    (hd : DischargeStep r.step) (hno : ∀ r' ∈ rows, r'.cycle = r.cycle → ¬ ChargeStep r'.step)
    (m v : Rat) (hm : Highest rows (fun r' => r'.cycle = r.cycle) NvRow.capacity m)
    (hv : r.capacity = some v) : o.dischargeCapacity = some (m - v) := by
  have hc : ¬ r.charges = true := by
    rw [charges_iff]; unfold ChargeStep DischargeStep at *; omega
  have hrest : ¬ stepName r.step = some .rest := by
    rw [rest_iff]; unfold RestStep DischargeStep at *; omega
  unfold novonix at h
  split at h
  · cases h
    rw [List.getElem?_map, hr] at ho
    cases ho
    simp only [columns, hc, hrest, if_false]
    rw [reference_only rows _ _ hno m hm, hv]; rfl
  · cases h

/-- C44 is violated: in a cycle without a charge the discharge energy is a capacity minus an energy -/
theorem C44_discharge_only_energy_violated (rows : List NvRow) (out : List NvOut)
    (h : novonix rows = .ok out) (i : Nat) (r : NvRow) (o : NvOut) (hr : rows[i]? = some r)
    (ho : out[i]? = some o) (hd : DischargeStep r.step)
    (hno : ∀ r' ∈ rows, r'.cycle = r.cycle → ¬ ChargeStep r'.step)
    (m v : Rat) (hm : Highest rows (fun r' => r'.cycle = r.cycle) NvRow.capacity m)
    (hv : r.energy = some v) : o.dischargeEnergy = some (m - v) := by
  have hc : ¬ r.charges = true := by
    rw [charges_iff]; unfold ChargeStep DischargeStep at *; omega
  have hrest : ¬ stepName r.step = some .rest := by
    rw [rest_iff]; unfold RestStep DischargeStep at *; omega
  unfold novonix at h
  split at h
  · cases h
    rw [List.getElem?_map, hr] at ho
    cases ho
    simp only [columns, hc, hrest, if_false]
    rw [reference_only rows _ _ hno m hm, hv]; rfl
  · cases h

/-- C44, beside the claim: a rest row carries the recorded values as discharge, not measured from the
end of charge -/
theorem C44_rest_rows (rows : List NvRow) (out : List NvOut) (h : novonix rows = .ok out)
    (i : Nat) (r : NvRow) (o : NvOut) (hr : rows[i]? = some r) (ho : out[i]? = some o)
    (hrest : RestStep r.step) : o.dischargeCapacity = r.capacity ∧ o.dischargeEnergy = r.energy := by
  have hc : ¬ r.charges = true := by
    rw [charges_iff]; unfold ChargeStep RestStep at *; omega
  unfold novonix at h
  split at h
  · cases h
    rw [List.getElem?_map, hr] at ho
    cases ho
    simp [columns, hc, (rest_iff r.step).mpr hrest]
  · cases h

/-- C44 applies: charge to 3, rest, discharge -/
example : novonix [⟨1, 1, some 1, some 4⟩, ⟨1, 1, some 3, some 12⟩, ⟨1, 0, some 3, some 12⟩,
      ⟨1, 2, some 2, some 8⟩, ⟨1, 2, some 0, some 0⟩] =
    .ok [⟨some 1, none, some 4, none⟩, ⟨some 3, none, some 12, none⟩, ⟨none, some 3, none, some 12⟩,
      ⟨none, some 1, none, some 4⟩, ⟨none, some 3, none, some 12⟩] := by decide +kernel

example : EndOfCharge [⟨1, 1, some 1, some 4⟩, ⟨1, 1, some 3, some 12⟩, ⟨1, 2, some 2, some 8⟩]
    NvRow.capacity 1 3 := by
  refine ⟨⟨⟨1, 1, some 3, some 12⟩, by simp, ⟨rfl, Or.inl rfl⟩, rfl⟩, ?_⟩
  intro r hr hp v hv
  simp only [List.mem_cons, List.not_mem_nil, or_false] at hr
  rcases hr with rfl | rfl | rfl
  · cases hv; norm_num
  · cases hv; norm_num
  · cases hv; norm_num

/-- C44 fails: in a discharge-only cycle the energy columns mix units -/
example : novonix [⟨1, 2, some 3, some 12⟩, ⟨1, 2, some 0, some 0⟩] =
    .ok [⟨none, some 0, none, some (-9)⟩, ⟨none, some 3, none, some 3⟩] := by decide +kernel

end Beep.Props.Parsers
