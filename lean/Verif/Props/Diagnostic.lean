import Verif.Proof.Diagnostic
/-
Property theorems C01-C04 about diagnostic configurations.
-/
namespace Beep.Diagnostic
open Beep.Spec.Diagnostic

/-! ### C01: acceptance and lookup -/

/-- C01 (acceptance).  A mapping from type names to index collections is accepted
exactly when it is non-empty, no index is listed under two types, and every keyword
parameter is an int, str, float or bool. -/
theorem C01_accept_iff (d : Dict String (List Int)) (wf : d.WF) (kw : Dict String KwVal) :
    (∃ c, init d kw = .ok c) ↔
      d ≠ [] ∧ Unambiguous d ∧ (∀ k v, (k, v) ∈ kw → ∀ tag, v ≠ .other tag) := by
  constructor
  · rintro ⟨c, h⟩
    obtain ⟨h1, h2, h3, _⟩ := (init_ok_iff wf kw c).mp h
    refine ⟨h1, h2, ?_⟩
    intro k v hm tag e
    have := h3 _ hm
    rw [e] at this
    simp [KwVal.allowed] at this
  · rintro ⟨h1, h2, h3⟩
    refine ⟨_, (init_ok_iff wf kw _).mpr ⟨h1, h2, ?_, rfl⟩⟩
    rintro ⟨k, v⟩ hm
    cases v with
    | other tag => exact absurd rfl (h3 k _ hm tag)
    | _ => rfl

/-- C01 (which error).  An overlapping or empty mapping is a `ValueError`; otherwise a
bad keyword parameter is a `TypeError`. -/
theorem C01_reject (d : Dict String (List Int)) (wf : d.WF) (kw : Dict String KwVal) (e : Err) :
    init d kw = .error e →
      (e = .valueError ∧ (d = [] ∨ ¬ Unambiguous d)) ∨
      (e = .typeError ∧ ∃ k tag, (k, KwVal.other tag) ∈ kw) := by
  intro h
  by_cases h0 : d = []
  · subst h0; simp [init] at h; exact Or.inl ⟨h.symm, Or.inl rfl⟩
  by_cases h1 : Unambiguous d
  · right
    have h1' := (count_iff wf).mpr h1
    have h0' : d.isEmpty = false := by cases d <;> simp_all
    unfold init at h
    simp only [h0', Bool.false_eq_true, if_false, ne_eq, h1', not_true] at h
    split at h
    · rename_i h2
      obtain ⟨⟨k, v⟩, hp, hq⟩ := List.any_eq_true.mp h2
      refine ⟨by simpa using h.symm, k, ?_⟩
      cases v with
      | other tag => exact ⟨tag, hp⟩
      | _ => simp [KwVal.allowed] at hq
    · simp at h
  · left
    have h1' := mt (count_iff wf).mp h1
    have h0' : d.isEmpty = false := by cases d <;> simp_all
    unfold init at h
    simp only [h0', Bool.false_eq_true, if_false, ne_eq, h1', not_false_eq_true, if_true] at h
    exact ⟨by simpa using h.symm, Or.inr h1⟩

/-- C01 (lookup).  In an accepted configuration an index is mapped to exactly the
type under which the user listed it. -/
theorem C01_lookup (d : Dict String (List Int)) (wf : d.WF) (kw : Dict String KwVal) (c : Config)
    (h : init d kw = .ok c) (i : Int) (t : String) :
    c.typeByIx.get? i = some t ↔ Listed d i t := by
  obtain ⟨_, hu, _, rfl⟩ := (init_ok_iff wf kw c).mp h
  rw [get?_build _ (unamb_map_unique.mpr hu), listed_map_unique]

/-- non-vacuity for C01 -/
def exampleMapping : Dict String (List Int) := [("RPT_0.2C", [1, 38, 1]), ("hppc", [2, 39])]

example : exampleMapping.WF ∧ (∃ c, init exampleMapping [("parameter_set", .str "Tesla21")] = .ok c) ∧
    Listed exampleMapping 38 "RPT_0.2C" :=
  ⟨by decide, ⟨_, rfl⟩, ⟨[1, 38, 1], by decide, by decide⟩⟩
example : init [("a", [1, 2]), ("b", [2])] [] = .error .valueError := rfl
example : init [("a", [1, 2])] [("x", .other 0)] = .error .typeError := rfl

/-! ### C02: derived index sets -/

/-- C02 (all).  `all_ix` is the set of indices listed anywhere. -/
theorem C02_all (d : Dict String (List Int)) (wf : d.WF) (kw : Dict String KwVal) (c : Config)
    (h : init d kw = .ok c) (i : Int) : i ∈ c.allIx ↔ ∃ t, Listed d i t := by
  have hl := C01_lookup d wf kw c h i
  obtain ⟨_, hu, _, rfl⟩ := (init_ok_iff wf kw c).mp h
  simp only at hl ⊢
  constructor
  · intro hi
    cases e : (buildTypeByIx (d.map fun p => (p.1, unique p.2))).get? i with
    | none => exact absurd hi (Dict.get?_eq_none_iff.mp e)
    | some t => exact ⟨t, (hl t).mp e⟩
  · rintro ⟨t, ht⟩
    have := (hl t).mpr ht
    apply Classical.byContradiction
    intro hc
    rw [Dict.get?_eq_none_iff.mpr hc] at this
    cases this

/-- C02 (hppc / rpt / reset).  The three special sets hold exactly the indices
listed under a type whose name contains the word, ignoring case. -/
theorem C02_special (d : Dict String (List Int)) (wf : d.WF) (kw : Dict String KwVal) (c : Config)
    (h : init d kw = .ok c) (i : Int) :
    (i ∈ c.hppcIx ↔ ∃ t, Listed d i t ∧ NameContains "hppc" t) ∧
    (i ∈ c.rptIx ↔ ∃ t, Listed d i t ∧ NameContains "rpt" t) ∧
    (i ∈ c.resetIx ↔ ∃ t, Listed d i t ∧ NameContains "reset" t) := by
  obtain ⟨_, _, _, rfl⟩ := (init_ok_iff wf kw c).mp h
  have key : ∀ w, i ∈ ixFor w (d.map fun p => (p.1, unique p.2)) ↔
      ∃ t, Listed d i t ∧ NameContains w t := by
    intro w
    rw [mem_ixFor]
    constructor
    · rintro ⟨t, ix, h1, h2, h3⟩; exact ⟨t, listed_map_unique.mp ⟨ix, h1, h2⟩, h3⟩
    · rintro ⟨t, h1, h2⟩
      obtain ⟨ix, h3, h4⟩ := listed_map_unique.mpr h1
      exact ⟨t, ix, h3, h4, h2⟩
  exact ⟨key _, key _, key _⟩

/-- C02: the special sets are part of `all_ix`. -/
theorem C02_special_subset (d : Dict String (List Int)) (wf : d.WF) (kw : Dict String KwVal)
    (c : Config) (h : init d kw = .ok c) (i : Int)
    (hi : i ∈ c.hppcIx ∨ i ∈ c.rptIx ∨ i ∈ c.resetIx) : i ∈ c.allIx := by
  obtain ⟨h1, h2, h3⟩ := C02_special d wf kw c h i
  rw [C02_all d wf kw c h]
  rcases hi with hi | hi | hi
  · obtain ⟨t, ht, _⟩ := h1.mp hi; exact ⟨t, ht⟩
  · obtain ⟨t, ht, _⟩ := h2.mp hi; exact ⟨t, ht⟩
  · obtain ⟨t, ht, _⟩ := h3.mp hi; exact ⟨t, ht⟩

example : ∃ c, init exampleMapping [] = .ok c ∧ c.rptIx = [1, 38] ∧ c.hppcIx = [2, 39] ∧
    c.resetIx = [] ∧ c.allIx = [1, 38, 2, 39] := ⟨_, rfl, by decide, by decide, by decide, by decide⟩

/-! ### C03: step-number matching -/

/-- the step indices that occur in cycle `c` of the raw data -/
def Occurs (rows : List Row) (c s : Int) : Prop := ⟨c, s⟩ ∈ rows

/-- cycle `c` of the raw data matches type `t` of the criteria -/
def CycleMatches (rows : List Row) (criteria : Dict String (String × List (List Int)))
    (c : Int) (t : String) : Prop :=
  (∃ s, Occurs rows c s) ∧
  ∃ rule patterns, (t, (rule, patterns)) ∈ criteria ∧
    ∃ p ∈ patterns, PatternMatches rule p (Occurs rows c)

/-- C03 (selection).  When the call succeeds, a cycle is labelled `t` exactly when it
occurs in the data and one of the patterns of `t` matches it. -/
theorem C03_label (rows : List Row) (criteria : Dict String (String × List (List Int)))
    (wf : criteria.WF) (kw : Dict String KwVal) (c : Config)
    (h : fromStepNumbers true rows criteria kw = .ok c) (i : Int) (t : String) :
    c.typeByIx.get? i = some t ↔ CycleMatches rows criteria i t := by
  obtain ⟨hr, h⟩ := fromStepNumbers_ok h
  rw [matched_eq rows criteria wf] at h
  rw [C01_lookup _ (WF_matched rows criteria wf) kw c h, listed_matched rows criteria hr]
  rfl

/-- C03 (acceptance).  The call succeeds exactly when the table has a step column, at
least one type is given, all rules are known, no cycle matches two types, and the
keyword arguments are allowed. -/
theorem C03_accept_iff (b : Bool) (rows : List Row)
    (criteria : Dict String (String × List (List Int)))
    (wf : criteria.WF) (kw : Dict String KwVal) :
    (∃ c, fromStepNumbers b rows criteria kw = .ok c) ↔
      b = true ∧ criteria ≠ [] ∧
      (∀ t rule ps, (t, (rule, ps)) ∈ criteria → rule = "contains" ∨ rule = "exact") ∧
      (∀ i t t', CycleMatches rows criteria i t → CycleMatches rows criteria i t' → t = t') ∧
      (∀ k v, (k, v) ∈ kw → ∀ tag, v ≠ .other tag) := by
  have hne : (matched rows criteria ≠ []) ↔ criteria ≠ [] := by simp [matched]
  constructor
  · rintro ⟨c, h⟩
    have hb : b = true := by
      cases b
      · simp [fromStepNumbers] at h
      · rfl
    subst hb
    obtain ⟨hr, h⟩ := fromStepNumbers_ok h
    rw [matched_eq rows criteria wf] at h
    obtain ⟨h1, h2, h3⟩ := (C01_accept_iff _ (WF_matched rows criteria wf) kw).mp ⟨c, h⟩
    refine ⟨rfl, hne.mp h1, hr, ?_, h3⟩
    intro i t t' m m'
    exact h2 i t t' ((listed_matched rows criteria hr i t).mpr m)
      ((listed_matched rows criteria hr i t').mpr m')
  · rintro ⟨rfl, h1, hr, h2, h3⟩
    have hr' : criteria.any (fun p => !(p.2.1 == "contains" || p.2.1 == "exact")) = false := by
      rw [List.any_eq_false]
      rintro ⟨t, rule, ps⟩ hp
      rcases hr t rule ps hp with e | e <;> simp [e]
    obtain ⟨c, hc⟩ := (C01_accept_iff _ (WF_matched rows criteria wf) kw).mpr
      ⟨hne.mpr h1, fun i t t' m m' => h2 i t t' ((listed_matched rows criteria hr i t).mp m)
        ((listed_matched rows criteria hr i t').mp m'), h3⟩
    refine ⟨c, ?_⟩
    unfold fromStepNumbers
    simp only [hr', Bool.not_true, Bool.false_eq_true, if_false]
    rw [matched_eq rows criteria wf]
    exact hc

/-- C03 (errors).  A missing step column or an unknown rule is a `ValueError`. -/
theorem C03_error (b : Bool) (rows : List Row) (criteria : Dict String (String × List (List Int)))
    (kw : Dict String KwVal)
    (h : b = false ∨ ∃ t rule ps, (t, (rule, ps)) ∈ criteria ∧ rule ≠ "contains" ∧ rule ≠ "exact") :
    fromStepNumbers b rows criteria kw = .error .valueError := by
  unfold fromStepNumbers
  cases b
  · rfl
  · rcases h with h | ⟨t, rule, ps, hm, h1, h2⟩
    · cases h
    · have : criteria.any (fun p => !(p.2.1 == "contains" || p.2.1 == "exact")) = true :=
        List.any_eq_true.mpr ⟨_, hm, by simp [h1, h2]⟩
      simp only [this, Bool.not_true, Bool.false_eq_true, if_false, if_true]

/-- non-vacuity for C03: cycle 1 contains steps 1,2,3; cycle 2 exactly 12,13; cycle 3
has an additional step 14 and is a regular cycle -/
def exampleRows : List Row :=
  [⟨1, 1⟩, ⟨1, 2⟩, ⟨1, 2⟩, ⟨1, 3⟩, ⟨2, 12⟩, ⟨2, 13⟩, ⟨3, 12⟩, ⟨3, 13⟩, ⟨3, 14⟩]
def exampleCriteria : Dict String (String × List (List Int)) :=
  [("hppc", ("contains", [[9], [1, 3]])), ("rpt", ("exact", [[13, 12, 12]]))]

example : exampleCriteria.WF ∧ ∃ c, fromStepNumbers true exampleRows exampleCriteria [] = .ok c ∧
    c.typeByIx = [(1, "hppc"), (2, "rpt")] := ⟨by decide, _, rfl, by decide⟩

/-! ### C04: serialisation -/

/-- C04.  Reading back what `as_dict` writes gives the identical configuration. -/
theorem C04_round_trip (d : Dict String (List Int)) (wf : d.WF) (kw : Dict String KwVal)
    (c : Config) (h : init d kw = .ok c) : fromDict (asDict c) = .ok c := by
  obtain ⟨h1, h2, h3, rfl⟩ := (init_ok_iff wf kw c).mp h
  unfold fromDict asDict
  rw [init_ok_iff (WF_map_unique wf)]
  have e : (d.map fun p => (p.1, unique p.2)).map (fun p => (p.1, unique p.2)) =
      d.map fun p => (p.1, unique p.2) := by
    simp [List.map_map, Function.comp_def, unique_unique]
  refine ⟨by simpa using h1, ?_, h3, ?_⟩
  · intro i t t' l l'
    have conv : ∀ t, Listed (d.map fun p => (p.1, unique p.2)) i t → Listed d i t :=
      fun t hl => listed_map_unique.mp hl
    exact h2 i t t' (conv t l) (conv t' l')
  · simp only [e]

example : ∃ c, init exampleMapping [("v_range", .str "x")] = .ok c ∧ fromDict (asDict c) = .ok c :=
  ⟨_, rfl, rfl⟩

end Beep.Diagnostic
