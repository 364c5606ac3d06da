import Verif.Proof.Validate
/-
Property theorems C05 about schema validation.
-/
namespace Beep.Validate
open Beep.Spec.Validate

/-- the column a schema name refers to: the data columns are matched in lower case -/
def ColumnOf (f : Frame) (name : String) (c : Col) : Prop := (lowerNames f).get? name = some c

/-- C05 (pass).  Validation returns `(True, "")` exactly when every rule of every schema
column finds its column, can be evaluated on it, and holds for all of its rows. -/
theorem C05_valid_iff (schema : Dict String ColSchema) (f : Frame) :
    validate schema f = .ok none ↔
      ∀ name r, (name, r) ∈ allRules schema →
        ∃ c, ColumnOf f name c ∧ Applicable r c ∧ Holds r c := by
  unfold validate
  rw [validateLoop_eq, firstBad_ok_none]
  unfold evals allRules
  simp only [List.mem_flatMap, List.mem_map, Prod.exists, Prod.mk.injEq]
  have key : ∀ mal name r, evalRule (lowerNames f) mal name r = .ok none ↔
      ∃ c, ColumnOf f name c ∧ Applicable r c ∧ Holds r c := by
    intro mal name r
    unfold evalRule column ColumnOf
    cases (lowerNames f).get? name with
    | none => simp
    | some c =>
      simp only [Option.some.injEq, exists_eq_left']
      rcases checkRule_outcome name mal r c with ⟨h1, h2, h3⟩ | ⟨h1, h2, q, h3, _⟩ | ⟨h1, e, h3⟩
      · simp [h1, h2, h3]
      · simp [h2, h3]
      · simp [h1, h3]
  constructor
  · rintro h name r ⟨n, s, hm, r', hr, rfl, rfl⟩
    exact (key _ _ _).mp (h _ ⟨n, s, hm, r', hr, rfl⟩)
  · rintro h x ⟨n, s, hm, r, hr, rfl⟩
    exact (key _ _ _).mpr (h n r ⟨n, s, hm, r, hr, rfl, rfl⟩)

theorem nonInt_true (v : Option Rat) : nonInt v = true ↔ ¬ ∃ n : Int, v = some (n : Rat) := by
  rw [← nonInt_false]; simp

theorem gtN_true (m : Rat) (v : Option Rat) : gtN m v = true ↔ ∃ x, v = some x ∧ m < x := by
  cases v <;> simp [gtN]

theorem ltN_true (m : Rat) (v : Option Rat) : ltN m v = true ↔ ∃ x, v = some x ∧ x < m := by
  cases v <;> simp [ltN]

theorem firstIdx_offends (p : Option Rat → Bool) (P : Option Rat → Prop) (hp : ∀ v, p v = true ↔ P v)
    (l : List (Option Rat)) (i : Nat) (h : firstIdx p l = some i) :
    (∃ v, l[i]? = some v ∧ P v ∧ l.getD i none = v) ∧ ∀ j v, j < i → l[j]? = some v → ¬ P v := by
  obtain ⟨⟨v, h1, h2⟩, h3⟩ := (firstIdx_some p l i).mp h
  refine ⟨⟨v, h1, (hp v).mp h2, by rw [List.getD_eq_getElem?_getD, h1]; rfl⟩, ?_⟩
  intro j w hj hw hP
  have := h3 j hj w hw
  rw [(hp w).mpr hP] at this
  cases this

theorem checkRule_message (name : String) (mal : Option Rat) (r : Rule) (c : Col) (q : Reason)
    (h : checkRule name mal r c = .ok (some q)) :
    (q.kind ≠ .minIsBelow → q.shown = r.bound) ∧
    (q.kind = .max ∨ q.kind = .min ∨ r = .type "integer" → ∃ i, q.row = some i) ∧
    ∀ i, q.row = some i → ∃ fl vals, c = .num fl vals ∧
      (∃ v, vals[i]? = some v ∧ Offends r v ∧ q.value = v) ∧
      ∀ j v, j < i → vals[j]? = some v → ¬ Offends r v := by
  cases r with
  | type t =>
    simp only [checkRule, checkType] at h
    split at h
    · cases h
    · split at h
      · rename_i _ ht
        have ht : t = "integer" := by simpa using ht
        subst ht
        split at h
        · split at h
          · rename_i fl vals _ i hi
            cases h
            refine ⟨fun _ => rfl, fun _ => ⟨_, rfl⟩, ?_⟩
            rintro _ ⟨⟩
            refine ⟨fl, vals, rfl, ?_⟩
            exact firstIdx_offends nonInt _ (fun v => by rw [nonInt_true]; simp [Offends]) vals i hi
          · cases h
        · cases h
        · cases h
      · rename_i _ ht
        have ht : t ≠ "integer" := by simpa using ht
        have : q.shown = none ∧ q.row = none ∧ q.kind = .type := by
          split at h
          · split at h
            · cases h
            · cases h; exact ⟨rfl, rfl, rfl⟩
          · split at h
            · split at h
              · cases h
              · cases h; exact ⟨rfl, rfl, rfl⟩
            · split at h
              · cases h
              · cases h; exact ⟨rfl, rfl, rfl⟩
        obtain ⟨h1, h2, h3⟩ := this
        refine ⟨fun _ => h1, ?_, ?_⟩
        · simp [h3, ht]
        · simp [h2]
  | max m =>
    simp only [checkRule, checkMax] at h
    split at h
    · split at h
      · rename_i fl vals _ i hi
        cases h
        refine ⟨fun _ => rfl, fun _ => ⟨_, rfl⟩, ?_⟩
        rintro _ ⟨⟩
        exact ⟨fl, vals, rfl, firstIdx_offends (gtN m) _ (gtN_true m) vals i hi⟩
      · cases h
    · cases h
    · cases h
  | min m =>
    simp only [checkRule, checkMin] at h
    split at h
    · split at h
      · rename_i fl vals _ i hi
        cases h
        refine ⟨fun _ => rfl, fun _ => ⟨_, rfl⟩, ?_⟩
        rintro _ ⟨⟩
        exact ⟨fl, vals, rfl, firstIdx_offends (ltN m) _ (ltN_true m) vals i hi⟩
      · cases h
    · cases h
    · cases h
  | maxAtLeast m =>
    simp only [checkRule, checkMaxAtLeast] at h
    split at h
    · split at h
      · cases h; simp [Rule.bound]
      · cases h
    · cases h
    · cases h
  | minIsBelow m =>
    simp only [checkRule, checkMinIsBelow] at h
    split at h
    · split at h
      · cases h; simp
      · cases h
    · cases h
    · cases h
  | increasing =>
    simp only [checkRule, checkMonotonic] at h
    split at h
    · split at h
      · cases h; simp [Rule.bound]
      · cases h
    · cases h
    · cases h

theorem checkRule_found (name : String) (mal : Option Rat) (r : Rule) (c : Col) (q : Reason)
    (h : checkRule name mal r c = .ok (some q)) :
    q.kind = .maxAtLeast ∨ q.kind = .minIsBelow → ∃ fl vals, c = .num fl vals ∧ vals.head? = some q.value := by
  have hk : q.kind = r.kind := by
    rcases checkRule_outcome name mal r c with ⟨_, _, h3⟩ | ⟨_, _, q', h3, _, h5⟩ | ⟨_, e, h3⟩
    · rw [h3] at h; cases h
    · rw [h3] at h; cases h; exact h5
    · rw [h3] at h; cases h
  rw [hk]
  cases r with
  | maxAtLeast m =>
    intro _
    simp only [checkRule, checkMaxAtLeast] at h
    split at h
    · rename_i fl vals
      split at h
      · rename_i hlt
        cases h
        refine ⟨fl, vals, rfl, ?_⟩
        cases vals with
        | nil => exact absurd hlt Bool.false_ne_true
        | cons v vs => rfl
      · cases h
    · cases h
    · cases h
  | minIsBelow m =>
    intro _
    simp only [checkRule, checkMinIsBelow] at h
    split at h
    · rename_i fl vals
      split at h
      · rename_i hlt
        cases h
        refine ⟨fl, vals, rfl, ?_⟩
        cases vals with
        | nil => exact absurd hlt Bool.false_ne_true
        | cons v vs => rfl
      · cases h
    · cases h
    · cases h
  | type t => rintro (h | h) <;> cases h
  | max m => rintro (h | h) <;> cases h
  | min m => rintro (h | h) <;> cases h
  | increasing => rintro (h | h) <;> cases h

/-- C05 (fail).  When validation returns False, the reported column and rule is the first
rule, in schema order and in the fixed order of rules, that does not hold; all earlier
rules hold.  The message shows the bound of that rule (except for `min_is_below`, see
below), and for the rules that are checked row by row (`max`, `min`, integer type) the row
number and the value it contains are those of the first offending row. -/
theorem C05_first_failure (schema : Dict String ColSchema) (f : Frame) (q : Reason)
    (h : validate schema f = .ok (some q)) :
    ∃ pre r post, allRules schema = pre ++ (q.column, r) :: post ∧ q.kind = r.kind ∧
      (∃ c, ColumnOf f q.column c ∧ Applicable r c ∧ ¬ Holds r c ∧
        (∀ i, q.row = some i → ∃ fl vals, c = .num fl vals ∧
          (∃ v, vals[i]? = some v ∧ Offends r v ∧ q.value = v) ∧
          ∀ j v, j < i → vals[j]? = some v → ¬ Offends r v) ∧
        (q.kind = .maxAtLeast ∨ q.kind = .minIsBelow → ∃ fl vals, c = .num fl vals ∧ vals.head? = some q.value)) ∧
      (q.kind ≠ .minIsBelow → q.shown = r.bound) ∧
      (q.kind = .max ∨ q.kind = .min ∨ r = .type "integer" → ∃ i, q.row = some i) ∧
      (∀ name r', (name, r') ∈ pre → ∃ c, ColumnOf f name c ∧ Applicable r' c ∧ Holds r' c) := by
  unfold validate at h
  rw [validateLoop_eq, firstBad_eq _ _ (by simp)] at h
  obtain ⟨pre, post, he, hpre⟩ := h
  -- relate the list of evaluations with the list of rules position by position
  let tagged : List (Option Rat × String × Rule) :=
    schema.flatMap (fun p => (rulesOf p.2).map (fun r => (p.2.maxAtLeast, p.1, r)))
  have e1 : evals (lowerNames f) schema =
      tagged.map (fun t => evalRule (lowerNames f) t.1 t.2.1 t.2.2) := by
    simp [evals, tagged, List.map_flatMap, Function.comp_def]
  have e2 : allRules schema = tagged.map (fun t => t.2) := by
    simp [allRules, tagged, List.map_flatMap, Function.comp_def]
  rw [e1, List.map_eq_append_iff] at he
  obtain ⟨tp, tq, ht, hp, hq⟩ := he
  rw [List.map_eq_cons_iff] at hq
  obtain ⟨⟨mal, name, r⟩, tr, rfl, hx, _⟩ := hq
  have key : ∀ mal name r, evalRule (lowerNames f) mal name r = .ok none →
      ∃ c, ColumnOf f name c ∧ Applicable r c ∧ Holds r c := by
    intro mal name r
    unfold evalRule column ColumnOf
    cases (lowerNames f).get? name with
    | none => simp
    | some c =>
      simp only [Option.some.injEq, exists_eq_left']
      rcases checkRule_outcome name mal r c with ⟨h1, h2, h3⟩ | ⟨h1, h2, q, h3, _⟩ | ⟨h1, e, h3⟩
      · simp [h1, h2]
      · simp [h3]
      · simp [h3]
  simp only at hx
  unfold evalRule column at hx
  cases hc : (lowerNames f).get? name with
  | none => simp [hc] at hx
  | some c =>
    simp only [hc] at hx
    rcases checkRule_outcome name mal r c with ⟨h1, h2, h3⟩ | ⟨h1, h2, q', h3, h4, h5⟩ | ⟨h1, e, h3⟩
    · simp [h3] at hx
    · rw [h3] at hx
      simp only [Except.ok.injEq, Option.some.injEq] at hx
      subst hx
      subst h4
      obtain ⟨m1, m2, m3⟩ := checkRule_message _ mal r c _ h3
      have m4 := checkRule_found _ mal r c _ h3
      refine ⟨tp.map (fun t => t.2), r, tr.map (fun t => t.2), ?_, h5, ⟨c, hc, h1, h2, m3, m4⟩, m1, m2, ?_⟩
      · rw [e2, ht]; simp
      · intro n r' hm
        obtain ⟨⟨mal', n', r''⟩, ht', he'⟩ := List.mem_map.mp hm
        simp only [Prod.mk.injEq] at he'
        obtain ⟨rfl, rfl⟩ := he'
        apply key mal'
        apply hpre
        rw [← hp]
        exact List.mem_map.mpr ⟨_, ht', rfl⟩
    · simp [h3] at hx

/-- C05 (missing column).  A schema column with at least one rule that is missing from
the data is never accepted. -/
theorem C05_missing_column (schema : Dict String ColSchema) (f : Frame) (name : String) (r : Rule)
    (hr : (name, r) ∈ allRules schema) (hm : ∀ c, ¬ ColumnOf f name c) :
    validate schema f ≠ .ok none := by
  intro h
  obtain ⟨c, hc, _⟩ := (C05_valid_iff schema f).mp h name r hr
  exact hm c hc

/-- non-vacuity: the message names row 2, the first of two offending rows -/
example : validate [("v", { max := some 5 })] [("V", .num true [some 1, none, some 6, some 7])] =
    .ok (some { column := "v", kind := .max, shown := some 5, row := some 2, value := some 6 }) := by decide +kernel

/-- non-vacuity: upper case data columns, two rules, passing and failing data -/
def exampleSchema : Dict String ColSchema :=
  [("cycle_index", { type := some "integer", monotonic := some "increasing" }),
   ("voltage", { max := some 5, minIsBelow := some 3 })]

example : validate exampleSchema
    [("Cycle_Index", .num false [some 0, some 0, some 1]),
     ("Voltage", .num true [some (7/2), none, some (5/2)])] = .ok none := by decide +kernel
example : validate exampleSchema
    [("Cycle_Index", .num false [some 0, some 2, some 1]),
     ("Voltage", .num true [some 6])] = .ok (some { column := "cycle_index", kind := .monotonic }) := by
  decide +kernel
example : validate exampleSchema [("Cycle_Index", .num false [])] = .error .keyError := by decide +kernel

/-- The monotonicity rule does not see a decrease across a missing value: the column
`5, NaN, 3` decreases over its present values and is accepted. -/
theorem C05_increasing_violated :
    validate [("t", { monotonic := some "increasing" })]
      [("t", .num true [some 5, none, some 3])] = .ok none := by decide +kernel

/-- The message of the `min_is_below` rule prints the wrong threshold: it shows the
`max_at_least` rule (here none at all) instead of the violated bound 3. -/
theorem C05_message_violated :
    validate [("v", { minIsBelow := some 3 })] [("v", .num true [some 4])] =
      .ok (some { column := "v", kind := .minIsBelow, shown := none, value := some 4 }) := by decide +kernel

/-- The messages of `max_at_least` and `min_is_below` do not show what was found: whatever the
extreme of the column is, the value they print is that of its first row. -/
theorem C05_found_violated (schema : Dict String ColSchema) (f : Frame) (q : Reason)
    (h : validate schema f = .ok (some q)) (hk : q.kind = .maxAtLeast ∨ q.kind = .minIsBelow) :
    ∃ fl vals, ColumnOf f q.column (.num fl vals) ∧ vals.head? = some q.value := by
  obtain ⟨pre, r, post, _, _, ⟨c, hc, _, _, _, h1⟩, _⟩ := C05_first_failure schema f q h
  obtain ⟨fl, vals, rfl, h2⟩ := h1 hk
  exact ⟨fl, vals, hc, h2⟩

/-- "instead found: value=1" for a column that reaches 2 -/
example : validate [("v", { maxAtLeast := some 3 })] [("v", .num true [some 1, some 2])] =
    .ok (some { column := "v", kind := .maxAtLeast, shown := some 3, value := some 1 }) := by decide +kernel

end Beep.Validate
