import Verif.Spec.Running
import Verif.Props.Validate

/-!
# C167: validating a run that is still going on
-/

namespace Beep.Props.Running

open Beep.Validate Beep.Spec.Validate Beep.Spec.Running

theorem column_of_goesOn (f h : Frame) (hm : Matching f h) (name : String) (c : Col)
    (hc : ColumnOf (goesOn f h) name c) :
    ∃ a b, ColumnOf f name a ∧ ColumnOf h name b ∧ SameKind a b ∧ c = extend a b := by
  unfold ColumnOf goesOn lowerNames at *
  induction hm with
  | nil => simp [Dict.get?] at hc
  | @cons x y f h hxy _ ih =>
    obtain ⟨n, a⟩ := x
    obtain ⟨n', b⟩ := y
    simp only at hxy
    obtain ⟨rfl, hk⟩ := hxy
    simp only [List.zipWith_cons_cons, List.map_cons, Dict.get?] at hc ⊢
    split_ifs at hc ⊢ with hn
    · injection hc with hc
      exact ⟨a, b, rfl, rfl, hk, hc.symm⟩
    · exact ih hc

theorem column_goesOn (f h : Frame) (hm : Matching f h) (name : String) (a b : Col)
    (ha : ColumnOf f name a) (hb : ColumnOf h name b) :
    SameKind a b ∧ ColumnOf (goesOn f h) name (extend a b) := by
  unfold ColumnOf goesOn lowerNames at *
  induction hm with
  | nil => simp [Dict.get?] at ha
  | @cons x y f h hxy _ ih =>
    obtain ⟨n, a'⟩ := x
    obtain ⟨n', b'⟩ := y
    simp only at hxy
    obtain ⟨rfl, hk⟩ := hxy
    simp only [List.zipWith_cons_cons, List.map_cons, Dict.get?] at ha hb ⊢
    split_ifs at ha hb ⊢ with hn
    · injection ha with ha
      injection hb with hb
      subst ha hb
      exact ⟨hk, rfl⟩
    · exact ih ha hb

/-- A rule that looks at the records one by one, or at neighbours, holds of every beginning. -/
theorem holds_beginning (r : Rule) (a b : Col) (hk : SameKind a b) (hr : ¬ Reaches r)
    (hf : ∀ fl v fl' v', a = .num fl v → b = .num fl' v' → fl = fl')
    (ha : Applicable r (extend a b)) (h : Holds r (extend a b)) : Applicable r a ∧ Holds r a := by
  cases a with
  | num fl v =>
    cases b with
    | str _ => exact hk.elim
    | num fl' v' =>
      have := hf _ _ _ _ rfl rfl
      subst this
      simp only [extend, Bool.or_self] at ha h
      cases r with
      | type t =>
        refine ⟨ha, ?_⟩
        rcases h with ⟨h1, h2⟩ | h
        · exact .inl ⟨h1, fun x hx => h2 x (by simp [hx])⟩
        · exact .inr h
      | max m => exact ⟨trivial, fun x hx => h x (by simp [hx])⟩
      | min m => exact ⟨trivial, fun x hx => h x (by simp [hx])⟩
      | maxAtLeast m => exact absurd trivial hr
      | minIsBelow m => exact absurd trivial hr
      | increasing =>
        refine ⟨trivial, fun pre x y post e => ?_⟩
        exact h pre x y (post ++ v') (by rw [e]; simp)
  | str v =>
    cases b with
    | num _ _ => exact hk.elim
    | str v' =>
      simp only [extend] at ha h
      cases r with
      | type t =>
        refine ⟨?_, ?_⟩
        · rcases ha with ⟨h1, h2⟩ | h'
          · exact .inl ⟨h1, (List.append_eq_nil_iff.mp h2).1⟩
          · exact .inr h'
        · rcases h with ⟨h1, h2⟩ | h'
          · exact .inl ⟨h1, (List.append_eq_nil_iff.mp h2).1⟩
          · exact .inr h'
      | max m => exact ⟨(List.append_eq_nil_iff.mp ha).1, trivial⟩
      | min m => exact ⟨(List.append_eq_nil_iff.mp ha).1, trivial⟩
      | maxAtLeast m => exact absurd trivial hr
      | minIsBelow m => exact absurd trivial hr
      | increasing =>
        refine ⟨?_, trivial⟩
        have ha : (v ++ v').length < 2 := ha
        rw [List.length_append] at ha
        exact show v.length < 2 by omega

/-- The number columns keep their kind of numbers (an integer column gets integers). -/
def KeepsType (f h : Frame) : Prop :=
  ∀ name fl v fl' v', ColumnOf f name (.num fl v) → ColumnOf h name (.num fl' v') → fl = fl'

/-- A run that was accepted was acceptable at every earlier moment.

`_partial`: only for schemas without `max_at_least` and `min_is_below`, see `C167_early_violated`. -/
theorem C167_earlier_partial (schema : Dict String ColSchema) (f h : Frame) (hm : Matching f h)
    (ht : KeepsType f h) (hr : ∀ name r, (name, r) ∈ allRules schema → ¬ Reaches r)
    (hv : validate schema (goesOn f h) = .ok none) : validate schema f = .ok none := by
  rw [C05_valid_iff] at hv ⊢
  intro name r hmem
  obtain ⟨c, hc, h1, h2⟩ := hv name r hmem
  obtain ⟨a, b, ha, hb, hk, rfl⟩ := column_of_goesOn f h hm name c hc
  refine ⟨a, ha, holds_beginning r a b hk (hr name r hmem) ?_ h1 h2⟩
  rintro fl v fl' v' rfl rfl
  exact ht name fl v fl' v' ha hb

/-- A run that is rejected because of its type, a record above a maximum or below a minimum, or a
column that falls, is not accepted however it goes on. -/
theorem C167_rejected (schema : Dict String ColSchema) (f h : Frame) (hm : Matching f h)
    (ht : KeepsType f h) (q : Reason) (hq : q.kind ≠ .maxAtLeast) (hq' : q.kind ≠ .minIsBelow)
    (hv : validate schema f = .ok (some q)) : validate schema (goesOn f h) ≠ .ok none := by
  intro hok
  obtain ⟨pre, r, post, he, hkind, ⟨c, hc, happ, hnot, -⟩, -⟩ := C05_first_failure schema f q hv
  have hmem : (q.column, r) ∈ allRules schema := by rw [he]; simp
  rw [C05_valid_iff] at hok
  obtain ⟨c', hc', h1, h2⟩ := hok q.column r hmem
  obtain ⟨a, b, ha, hb, hk, rfl⟩ := column_of_goesOn f h hm _ _ hc'
  have : a = c := by
    unfold ColumnOf at ha hc
    rw [ha] at hc
    exact Option.some.inj hc
  subst this
  refine hnot (holds_beginning r a b hk ?_ ?_ h1 h2).2
  · intro hr
    rw [hkind] at hq hq'
    cases r with
    | maxAtLeast m => exact hq rfl
    | minIsBelow m => exact hq' rfl
    | type _ | max _ | min _ | increasing => exact hr
  · rintro fl v fl' v' rfl rfl
    exact ht _ fl v fl' v' ha hb

/-- If what was recorded so far is accepted and what is added is accepted, the whole is accepted, as
long as no column that has to increase falls where the two meet. -/
theorem C167_append (schema : Dict String ColSchema) (f h : Frame) (hm : Matching f h)
    (hj : ∀ name a b, (name, Rule.increasing) ∈ allRules schema → ColumnOf f name a →
      ColumnOf h name b → Follows a b)
    (hf : validate schema f = .ok none) (hh : validate schema h = .ok none) :
    validate schema (goesOn f h) = .ok none := by
  rw [C05_valid_iff] at hf hh ⊢
  intro name r hmem
  obtain ⟨a, ha, ha1, ha2⟩ := hf name r hmem
  obtain ⟨b, hb, hb1, hb2⟩ := hh name r hmem
  obtain ⟨hk, hc⟩ := column_goesOn f h hm name a b ha hb
  refine ⟨_, hc, ?_⟩
  cases a with
  | num fl v =>
    cases b with
    | str _ => exact hk.elim
    | num fl' v' =>
      simp only [extend]
      cases r with
      | type t =>
        refine ⟨ha1, ?_⟩
        rcases ha2 with ⟨h1, h2⟩ | ⟨h1, h2⟩ | h1
        · rcases hb2 with ⟨h3, h4⟩ | ⟨h3, h4⟩ | h3
          · left
            refine ⟨h1, fun x hx => ?_⟩
            rcases List.mem_append.mp hx with hx | hx
            · exact h2 x hx
            · exact h4 x hx
          · rw [h1] at h3; simp at h3
          · rw [h1] at h3; simp at h3
        · exact .inr (.inl ⟨h1, by simp [h2]⟩)
        · exact .inr (.inr h1)
      | max m =>
        refine ⟨trivial, fun x hx => ?_⟩
        rcases List.mem_append.mp hx with hx | hx
        · exact ha2 x hx
        · exact hb2 x hx
      | min m =>
        refine ⟨trivial, fun x hx => ?_⟩
        rcases List.mem_append.mp hx with hx | hx
        · exact ha2 x hx
        · exact hb2 x hx
      | maxAtLeast m =>
        refine ⟨trivial, ?_⟩
        rintro ⟨x, hx⟩
        rcases List.mem_append.mp hx with hx | hx
        · obtain ⟨y, hy, hle⟩ := ha2 ⟨x, hx⟩
          exact ⟨y, by simp [hy], hle⟩
        · obtain ⟨y, hy, hle⟩ := hb2 ⟨x, hx⟩
          exact ⟨y, by simp [hy], hle⟩
      | minIsBelow m =>
        refine ⟨trivial, ?_⟩
        rintro ⟨x, hx⟩
        rcases List.mem_append.mp hx with hx | hx
        · obtain ⟨y, hy, hle⟩ := ha2 ⟨x, hx⟩
          exact ⟨y, by simp [hy], hle⟩
        · obtain ⟨y, hy, hle⟩ := hb2 ⟨x, hx⟩
          exact ⟨y, by simp [hy], hle⟩
      | increasing =>
        refine ⟨trivial, fun pre x y post e => ?_⟩
        have hjoin := hj name _ _ hmem ha hb
        rcases List.append_eq_append_iff.mp e with ⟨w, rfl, hw⟩ | ⟨w, rfl, hw⟩
        · exact hb2 w x y post hw
        · match w with
          | [] => exact hb2 [] x y post (by simpa using hw.symm)
          | [z] =>
            simp only [List.cons_append, List.nil_append, List.cons.injEq] at hw
            obtain ⟨rfl, rfl⟩ := hw
            exact hjoin x y (by simp) rfl
          | z :: z' :: w =>
            simp only [List.cons_append, List.cons.injEq] at hw
            obtain ⟨rfl, rfl, rfl⟩ := hw
            exact ha2 pre x y w rfl
  | str v =>
    cases b with
    | num _ _ => exact hk.elim
    | str v' =>
      simp only [extend]
      cases r with
      | type t =>
        refine ⟨?_, ?_⟩
        · rcases ha1 with ⟨h1, h2⟩ | h1
          · rcases hb1 with ⟨h3, h4⟩ | h3
            · exact .inl ⟨h1, by simp [h2, h4]⟩
            · exact .inr h3
          · exact .inr h1
        · rcases ha2 with ⟨h1, h2⟩ | h1
          · rcases hb2 with ⟨h3, h4⟩ | h3
            · exact .inl ⟨h1, by simp [h2, h4]⟩
            · exact .inr h3
          · exact .inr h1
      | max m => exact ⟨by simp [show v = [] from ha1, show v' = [] from hb1, Applicable], trivial⟩
      | min m => exact ⟨by simp [show v = [] from ha1, show v' = [] from hb1, Applicable], trivial⟩
      | maxAtLeast m => exact ⟨by simp [show v = [] from ha1, show v' = [] from hb1, Applicable], trivial⟩
      | minIsBelow m => exact ⟨by simp [show v = [] from ha1, show v' = [] from hb1, Applicable], trivial⟩
      | increasing => exact (hj name _ _ hmem ha hb).elim

/-- A run that is accepted in the end is rejected while it has not reached what it has to reach: for
every bound of `max_at_least`. -/
theorem C167_early_violated (m : Rat) : ∃ f h : Frame, Matching f h ∧ KeepsType f h ∧
    validate [("voltage", { maxAtLeast := some m })] (goesOn f h) = .ok none ∧
    validate [("voltage", { maxAtLeast := some m })] f =
      .ok (some { column := "voltage", kind := .maxAtLeast, shown := some m, value := some (m - 1) }) := by
  refine ⟨[("voltage", .num true [some (m - 1)])], [("voltage", .num true [some m])], ?_, ?_, ?_, ?_⟩
  · exact .cons ⟨rfl, trivial⟩ .nil
  · intro name fl v fl' v' h1 h2
    simp only [ColumnOf, lowerNames, List.map_cons, List.map_nil, Dict.get?] at h1 h2
    split_ifs at h1 h2
    simp only [Option.some.injEq, Col.num.injEq] at h1 h2
    rw [← h1.1, ← h2.1]
  · rw [C05_valid_iff]
    intro name r hr
    simp [allRules, rulesOf] at hr
    obtain ⟨rfl, rfl⟩ := hr
    refine ⟨.num true [some (m - 1), some m], ?_, trivial, fun _ => ⟨m, by simp, le_rfl⟩⟩
    simp only [ColumnOf, goesOn, lowerNames, List.zipWith_cons_cons, List.zipWith_nil_left, List.map_cons,
      List.map_nil, Dict.get?, extend]
    rw [if_pos (by decide +kernel)]
    rfl
  · have hl : lowerNames [("voltage", .num true [some (m - 1)])] =
        [("voltage", .num true [some (m - 1)])] := by
      simp only [lowerNames, List.map_cons, List.map_nil]
      rw [show String.ofList (lower "voltage") = "voltage" by decide +kernel]
    have hlt : ltN m (Pandas.maxN [some (m - 1)]) = true := by
      simp [Pandas.maxN, ltN]
    simp [validate, hl, validateLoop, validateColumn, orElse, rule, column, Dict.get?, checkMaxAtLeast, hlt]

/-! ## The hypotheses can be met -/

/-- A run of two records that goes on with two more. -/
def begun : Frame := [("Cycle_Index", .num false [some 0, some 0]), ("Voltage", .num true [some (7/2), none])]
def rest : Frame := [("Cycle_Index", .num false [some 1, some 1]), ("Voltage", .num true [some (5/2), some 3])]

theorem matching : Matching begun rest := .cons ⟨rfl, trivial⟩ (.cons ⟨rfl, trivial⟩ .nil)

theorem keepsType : KeepsType begun rest := by
  intro name fl v fl' v' h1 h2
  simp only [begun, rest, ColumnOf, lowerNames, List.map_cons, List.map_nil, Dict.get?] at h1 h2
  split_ifs at h1 h2 <;> simp only [Option.some.injEq, Col.num.injEq] at h1 h2 <;> rw [← h1.1, ← h2.1]

def plain : Dict String ColSchema :=
  [("cycle_index", { type := some "integer", monotonic := some "increasing" }), ("voltage", { max := some 5 })]

example : validate plain (goesOn begun rest) = .ok none ∧
    (∀ p ∈ allRules plain, p.2.kind ≠ .maxAtLeast ∧ p.2.kind ≠ .minIsBelow) ∧
    validate plain begun = .ok none ∧ validate plain rest = .ok none := by
  decide +kernel

/-- With a maximum of 3 the beginning is rejected, and so is the whole. -/
example : validate [("voltage", { max := some 3 })] begun =
    .ok (some { column := "voltage", kind := .max, shown := some 3, row := some 0, value := some (7/2) }) := by
  decide +kernel

/-- The cycle number does not fall where the two parts meet. -/
example : ∀ name a b, (name, Rule.increasing) ∈ allRules plain → ColumnOf begun name a →
    ColumnOf rest name b → Follows a b := by
  intro name a b hr h1 h2
  have : name = "cycle_index" := by
    simp [plain, allRules, rulesOf] at hr
    exact hr
  subst this
  have e1 : (lowerNames begun).get? "cycle_index" = some (.num false [some 0, some 0]) := by decide +kernel
  have e2 : (lowerNames rest).get? "cycle_index" = some (.num false [some 1, some 1]) := by decide +kernel
  unfold ColumnOf at h1 h2
  rw [e1] at h1
  rw [e2] at h2
  cases h1
  cases h2
  intro x y hx hy
  simp only [List.getLast?_cons_cons, List.getLast?_singleton, List.head?_cons, Option.some.injEq] at hx hy
  subst hx hy
  decide +kernel

end Beep.Props.Running
