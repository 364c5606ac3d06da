import Verif.Proof.Base
import Verif.Proof.Py
import Verif.Proof.Pandas
import Verif.Spec.Validate
/-
Helper lemmas for Props/Validate.
-/
namespace Beep.Validate
open Beep.Spec.Validate Beep.Pandas

theorem firstIdx_none {α : Type} (p : α → Bool) (l : List α) :
    firstIdx p l = none ↔ ∀ a ∈ l, p a = false := by
  induction l with
  | nil => simp [firstIdx]
  | cons a l ih =>
    unfold firstIdx
    by_cases h : p a = true
    · simp [h]
    · simp [h, ih]

theorem firstIdx_some {α : Type} (p : α → Bool) (l : List α) (i : Nat) :
    firstIdx p l = some i ↔ (∃ a, l[i]? = some a ∧ p a = true) ∧
      ∀ j < i, ∀ a, l[j]? = some a → p a = false := by
  induction l generalizing i with
  | nil => simp [firstIdx]
  | cons a l ih =>
    unfold firstIdx
    by_cases h : p a = true
    · simp only [h, if_true, Option.some.injEq]
      constructor
      · rintro rfl; simp [h]
      · rintro ⟨_, h2⟩
        by_contra hne
        have := h2 0 (by omega) a (by simp)
        simp [h] at this
    · simp only [h, if_false, Bool.false_eq_true, Option.map_eq_some_iff]
      constructor
      · rintro ⟨j, hj, rfl⟩
        obtain ⟨h1, h2⟩ := (ih j).mp hj
        refine ⟨by simpa using h1, ?_⟩
        intro k hk b hb
        cases k with
        | zero => simp at hb; subst hb; simpa using h
        | succ k => exact h2 k (by omega) b (by simpa using hb)
      · rintro ⟨⟨b, hb, hpb⟩, h2⟩
        cases i with
        | zero => simp at hb; subst hb; exact absurd hpb h
        | succ i =>
          refine ⟨i, (ih i).mpr ⟨⟨b, by simpa using hb, hpb⟩, ?_⟩, rfl⟩
          intro j hj c hc
          exact h2 (j+1) (by omega) c (by simpa using hc)

theorem mem_diffs (l : List (Option Rat)) (x : Rat) :
    x ∈ diffs l ↔ ∃ pre a b post, l = pre ++ some a :: some b :: post ∧ x = b - a := by
  induction l with
  | nil => simp [diffs]
  | cons u l ih =>
    have shift : (∃ pre a b post, u :: l = pre ++ some a :: some b :: post ∧ x = b - a) ↔
        (∃ a b post, u :: l = some a :: some b :: post ∧ x = b - a) ∨
        (∃ pre a b post, l = pre ++ some a :: some b :: post ∧ x = b - a) := by
      constructor
      · rintro ⟨pre, a, b, post, h, hx⟩
        cases pre with
        | nil => exact Or.inl ⟨a, b, post, h, hx⟩
        | cons q pre =>
          simp only [List.cons_append, List.cons.injEq] at h
          exact Or.inr ⟨pre, a, b, post, h.2, hx⟩
      · rintro (⟨a, b, post, h, hx⟩ | ⟨pre, a, b, post, h, hx⟩)
        · exact ⟨[], a, b, post, h, hx⟩
        · exact ⟨u :: pre, a, b, post, by simp [h], hx⟩
    rw [shift, ← ih]
    cases l with
    | nil => cases u <;> simp [diffs]
    | cons w l =>
      cases u with
      | none => simp [diffs]
      | some a =>
        cases w with
        | none => simp [diffs]
        | some b =>
          simp only [diffs, List.mem_cons]
          constructor
          · rintro (rfl | h)
            · exact Or.inl ⟨a, b, l, rfl, rfl⟩
            · exact Or.inr h
          · rintro (⟨a', b', post, h, rfl⟩ | h)
            · simp only [List.cons.injEq, Option.some.injEq] at h
              obtain ⟨rfl, rfl, _⟩ := h
              exact Or.inl rfl
            · exact Or.inr h

/-- uniform view of the six checks -/
def checkRule (name : String) (mal : Option Rat) : Rule → Col → Except Err (Option Reason)
  | .type t, c => checkType name c t
  | .max m, c => checkMax name c m
  | .min m, c => checkMin name c m
  | .maxAtLeast m, c => checkMaxAtLeast name c m
  | .minIsBelow m, c => checkMinIsBelow name c mal m
  | .increasing, c => checkMonotonic name c

/-- the three possible outcomes -/
def Outcome (name : String) (r : Rule) (c : Col) (x : Except Err (Option Reason)) : Prop :=
  (Applicable r c ∧ Holds r c ∧ x = .ok none) ∨
  (Applicable r c ∧ ¬ Holds r c ∧ ∃ q : Reason, x = .ok (some q) ∧ q.column = name ∧ q.kind = r.kind) ∨
  (¬ Applicable r c ∧ ∃ e, x = .error e)

theorem nonInt_false (v : Option Rat) : nonInt v = false ↔ ∃ n : Int, v = some (n : Rat) := by
  cases v with
  | none => simp [nonInt]
  | some v =>
    simp only [nonInt, decide_eq_false_iff_not, not_not, Option.some.injEq]
    constructor
    · intro h; exact ⟨v.num, ((Rat.den_eq_one_iff v).mp h).symm⟩
    · rintro ⟨n, rfl⟩; simp

theorem checkType_outcome (name : String) (t : String) (c : Col) :
    Outcome name (.type t) c (checkType name c t) := by
  have d1 : ("integer" : String) ≠ "float" := by decide
  have d2 : ("integer" : String) ≠ "numeric" := by decide
  have d3 : ("integer" : String) ≠ "string" := by decide
  have d4 : ("float" : String) ≠ "numeric" := by decide
  have d5 : ("float" : String) ≠ "string" := by decide
  have d6 : ("numeric" : String) ≠ "string" := by decide
  unfold checkType
  by_cases hs : (["integer", "float", "numeric", "string"] : List String).contains t = true
  · simp only [hs, Bool.not_true, Bool.false_eq_true, if_false]
    have hs' : t = "integer" ∨ t = "float" ∨ t = "numeric" ∨ t = "string" := by
      simpa using hs
    rcases hs' with rfl | rfl | rfl | rfl
    · simp only [beq_self_eq_true, if_true]
      cases c with
      | num fl vals =>
        dsimp only
        cases hf : firstIdx nonInt vals with
        | none =>
          left
          refine ⟨by simp [Applicable], ?_, rfl⟩
          left
          refine ⟨rfl, fun v hv => (nonInt_false v).mp ((firstIdx_none _ _).mp hf v hv)⟩
        | some i =>
          right; left
          refine ⟨by simp [Applicable], ?_, _, rfl, rfl, rfl⟩
          rintro (⟨_, h⟩ | ⟨h, _⟩ | h)
          · have : firstIdx nonInt vals = none :=
              (firstIdx_none _ _).mpr (fun v hv => (nonInt_false v).mpr (h v hv))
            simp [this] at hf
          · exact d1 h
          · exact d2 h
      | str vals =>
        cases vals with
        | nil => left; exact ⟨by simp [Applicable], by simp [Holds], rfl⟩
        | cons a vals =>
          right; right
          exact ⟨by simp [Applicable], _, rfl⟩
    · have e1 : (("float" : String) == "integer") = false := by decide
      simp only [e1, beq_self_eq_true, if_true, Bool.false_eq_true, if_false]
      cases c with
      | num fl vals =>
        cases fl
        · right; left; exact ⟨by simp [Applicable], by simp [Holds], _, rfl, rfl, rfl⟩
        · left; exact ⟨by simp [Applicable], by simp [Holds], rfl⟩
      | str vals => right; left; exact ⟨by simp [Applicable], by simp [Holds], _, rfl, rfl, rfl⟩
    · have e1 : (("numeric" : String) == "integer") = false := by decide
      have e2 : (("numeric" : String) == "float") = false := by decide
      simp only [e1, e2, beq_self_eq_true, if_true, Bool.false_eq_true, if_false]
      cases c with
      | num fl vals => left; exact ⟨by simp [Applicable], by simp [Holds], rfl⟩
      | str vals => right; left; exact ⟨by simp [Applicable], by simp [Holds], _, rfl, rfl, rfl⟩
    · have e1 : (("string" : String) == "integer") = false := by decide
      have e2 : (("string" : String) == "float") = false := by decide
      have e3 : (("string" : String) == "numeric") = false := by decide
      simp only [e1, e2, e3, Bool.false_eq_true, if_false]
      cases c with
      | num fl vals => right; left; exact ⟨by simp [Applicable], by simp [Holds], _, rfl, rfl, rfl⟩
      | str vals => left; exact ⟨by simp [Applicable], by simp [Holds], rfl⟩
  · simp only [hs, Bool.not_false, if_true]
    have hs' : ¬ (t = "integer" ∨ t = "float" ∨ t = "numeric" ∨ t = "string") := by
      simpa using hs
    right; right
    refine ⟨?_, _, rfl⟩
    cases c with
    | num fl vals => exact hs'
    | str vals =>
      rintro (⟨h, _⟩ | h)
      · exact hs' (Or.inl h)
      · exact hs' (Or.inr h)

theorem checkRule_outcome (name : String) (mal : Option Rat) (r : Rule) (c : Col) :
    Outcome name r c (checkRule name mal r c) := by
  cases r with
  | type t => exact checkType_outcome name t c
  | max m =>
    cases c with
    | num fl vals =>
      simp only [checkRule, checkMax]
      cases hf : firstIdx (gtN m) vals with
      | none =>
        left
        refine ⟨trivial, ?_, rfl⟩
        intro v hv
        have := (firstIdx_none _ _).mp hf _ hv
        simpa [gtN] using this
      | some i =>
        right; left
        refine ⟨trivial, ?_, _, rfl, rfl, rfl⟩
        intro h
        have : firstIdx (gtN m) vals = none := by
          rw [firstIdx_none]
          rintro (_ | v) hv
          · rfl
          · simpa [gtN] using h v hv
        simp [this] at hf
    | str vals =>
      cases vals with
      | nil => left; exact ⟨rfl, trivial, rfl⟩
      | cons a vals => right; right; exact ⟨by simp [Applicable], _, rfl⟩
  | min m =>
    cases c with
    | num fl vals =>
      simp only [checkRule, checkMin]
      cases hf : firstIdx (ltN m) vals with
      | none =>
        left
        refine ⟨trivial, ?_, rfl⟩
        intro v hv
        have := (firstIdx_none _ _).mp hf _ hv
        simpa [ltN] using this
      | some i =>
        right; left
        refine ⟨trivial, ?_, _, rfl, rfl, rfl⟩
        intro h
        have : firstIdx (ltN m) vals = none := by
          rw [firstIdx_none]
          rintro (_ | v) hv
          · rfl
          · simpa [ltN] using h v hv
        simp [this] at hf
    | str vals =>
      cases vals with
      | nil => left; exact ⟨rfl, trivial, rfl⟩
      | cons a vals => right; right; exact ⟨by simp [Applicable], _, rfl⟩
  | maxAtLeast m =>
    cases c with
    | num fl vals =>
      simp only [checkRule, checkMaxAtLeast]
      cases hf : maxN vals with
      | none =>
        left
        refine ⟨trivial, ?_, rfl⟩
        intro h
        exact absurd h ((maxN_none vals).mp hf)
      | some w =>
        obtain ⟨h1, h2⟩ := maxN_some vals w hf
        simp only [ltN]
        by_cases hlt : w < m
        · simp only [hlt, decide_true, if_true]
          right; left
          refine ⟨trivial, ?_, _, rfl, rfl, rfl⟩
          intro h
          obtain ⟨v, hv, hm⟩ := h ⟨w, h1⟩
          have := h2 v hv
          linarith
        · simp only [hlt, decide_false, if_false, Bool.false_eq_true]
          left
          exact ⟨trivial, fun _ => ⟨w, h1, not_lt.mp hlt⟩, rfl⟩
    | str vals =>
      cases vals with
      | nil => left; exact ⟨rfl, trivial, rfl⟩
      | cons a vals => right; right; exact ⟨by simp [Applicable], _, rfl⟩
  | minIsBelow m =>
    cases c with
    | num fl vals =>
      simp only [checkRule, checkMinIsBelow]
      cases hf : minN vals with
      | none =>
        left
        refine ⟨trivial, ?_, rfl⟩
        intro h
        exact absurd h ((minN_none vals).mp hf)
      | some w =>
        obtain ⟨h1, h2⟩ := minN_some vals w hf
        simp only [gtN]
        by_cases hlt : m < w
        · simp only [hlt, decide_true, if_true]
          right; left
          refine ⟨trivial, ?_, _, rfl, rfl, rfl⟩
          intro h
          obtain ⟨v, hv, hm⟩ := h ⟨w, h1⟩
          have := h2 v hv
          linarith
        · simp only [hlt, decide_false, if_false, Bool.false_eq_true]
          left
          exact ⟨trivial, fun _ => ⟨w, h1, not_lt.mp hlt⟩, rfl⟩
    | str vals =>
      cases vals with
      | nil => left; exact ⟨rfl, trivial, rfl⟩
      | cons a vals => right; right; exact ⟨by simp [Applicable], _, rfl⟩
  | increasing =>
    cases c with
    | num fl vals =>
      simp only [checkRule, checkMonotonic]
      by_cases hf : ((diffs vals).filter (fun x => decide (x < 0))).length > 0
      · simp only [hf, if_true]
        right; left
        refine ⟨trivial, ?_, _, rfl, rfl, rfl⟩
        intro h
        obtain ⟨x, hx⟩ := List.exists_mem_of_length_pos hf
        rw [List.mem_filter, mem_diffs] at hx
        obtain ⟨⟨pre, a, b, post, e, rfl⟩, hneg⟩ := hx
        have := h pre a b post e
        simp only [decide_eq_true_eq] at hneg
        linarith
      · simp only [hf, if_false]
        left
        refine ⟨trivial, ?_, rfl⟩
        intro pre a b post e
        by_contra hlt
        apply hf
        apply List.length_pos_of_mem (a := b - a)
        rw [List.mem_filter, mem_diffs]
        refine ⟨⟨pre, a, b, post, e, rfl⟩, ?_⟩
        simp only [decide_eq_true_eq]
        linarith
    | str vals =>
      match vals with
      | [] => left; exact ⟨by simp [Applicable], trivial, rfl⟩
      | [a] => left; exact ⟨by simp [Applicable], trivial, rfl⟩
      | a :: b :: vals => right; right; exact ⟨by simp [Applicable], _, rfl⟩

/-- evaluation of one rule on a frame -/
def evalRule (f : Frame) (mal : Option Rat) (name : String) (r : Rule) : Except Err (Option Reason) :=
  match column f name with
  | .error e => .error e
  | .ok c => checkRule name mal r c

/-- first outcome that is not a pass -/
def firstBad : List (Except Err (Option Reason)) → Except Err (Option Reason)
  | [] => .ok none
  | x :: xs => orElse x (firstBad xs)

theorem firstBad_append (xs ys : List (Except Err (Option Reason))) :
    firstBad (xs ++ ys) = orElse (firstBad xs) (firstBad ys) := by
  induction xs with
  | nil => rfl
  | cons x xs ih =>
    simp only [List.cons_append, firstBad, ih]
    rcases x with e | (_ | q) <;> rfl

theorem rule_eq {α : Type} (f : Frame) (mal : Option Rat) (name : String) (o : Option α) (g : α → Rule)
    (check : Col → α → Except Err (Option Reason))
    (h : ∀ c a, check c a = checkRule name mal (g a) c) :
    rule f name o check = firstBad (((o.map g).toList).map (evalRule f mal name)) := by
  cases o with
  | none => rfl
  | some a =>
    simp only [rule, Option.map_some, Option.toList_some, List.map_cons, List.map_nil, firstBad, evalRule]
    cases column f name with
    | error e => rfl
    | ok c =>
      simp only [h]
      cases checkRule name mal (g a) c with
      | error e => rfl
      | ok q => cases q <;> rfl

theorem validateColumn_eq (f : Frame) (name : String) (s : ColSchema) :
    validateColumn f name s =
      firstBad ((rulesOf s).map (evalRule f s.maxAtLeast name)) := by
  unfold validateColumn rulesOf
  rw [rule_eq f s.maxAtLeast name s.type Rule.type (checkType name) (fun _ _ => rfl),
    rule_eq f s.maxAtLeast name s.max Rule.max (checkMax name) (fun _ _ => rfl),
    rule_eq f s.maxAtLeast name s.min Rule.min (checkMin name) (fun _ _ => rfl),
    rule_eq f s.maxAtLeast name s.maxAtLeast Rule.maxAtLeast (checkMaxAtLeast name) (fun _ _ => rfl),
    rule_eq f s.maxAtLeast name s.minIsBelow Rule.minIsBelow
      (fun c m => checkMinIsBelow name c s.maxAtLeast m) (fun _ _ => rfl),
    rule_eq f s.maxAtLeast name _ (fun _ => Rule.increasing)
      (fun c _ => checkMonotonic name c) (fun _ _ => rfl)]
  simp only [← firstBad_append, ← List.map_append, List.append_assoc]
  congr 3
  by_cases h : s.monotonic = some "increasing" <;> simp [h]

/-- all evaluations in schema order -/
def evals (f : Frame) (schema : List (String × ColSchema)) : List (Except Err (Option Reason)) :=
  schema.flatMap (fun p => (rulesOf p.2).map (evalRule f p.2.maxAtLeast p.1))

theorem validateLoop_eq (f : Frame) (schema : List (String × ColSchema)) :
    validateLoop f schema = firstBad (evals f schema) := by
  induction schema with
  | nil => rfl
  | cons p schema ih =>
    simp only [validateLoop, evals, List.flatMap_cons, firstBad_append, validateColumn_eq, ih]

theorem firstBad_ok_none (xs : List (Except Err (Option Reason))) :
    firstBad xs = .ok none ↔ ∀ x ∈ xs, x = .ok none := by
  induction xs with
  | nil => simp [firstBad]
  | cons x xs ih =>
    simp only [firstBad, List.forall_mem_cons, ← ih]
    rcases x with e | (_ | q) <;> simp [orElse]

theorem firstBad_eq (xs : List (Except Err (Option Reason))) (y : Except Err (Option Reason))
    (hy : y ≠ .ok none) :
    firstBad xs = y ↔ ∃ pre post, xs = pre ++ y :: post ∧ ∀ x ∈ pre, x = .ok none := by
  induction xs with
  | nil =>
    simp only [firstBad]
    constructor
    · intro h; exact absurd h.symm hy
    · rintro ⟨pre, post, h, _⟩; cases pre <;> simp at h
  | cons x xs ih =>
    simp only [firstBad]
    by_cases hx : x = .ok none
    · subst hx
      simp only [orElse, ih]
      constructor
      · rintro ⟨pre, post, rfl, h⟩
        exact ⟨.ok none :: pre, post, rfl, by simpa using h⟩
      · rintro ⟨pre, post, h, hp⟩
        cases pre with
        | nil => simp only [List.nil_append, List.cons.injEq] at h; exact absurd h.1.symm hy
        | cons p pre =>
          simp only [List.cons_append, List.cons.injEq] at h
          exact ⟨pre, post, h.2, fun z hz => hp z (List.mem_cons_of_mem _ hz)⟩
    · have : orElse x (firstBad xs) = x := by
        rcases x with e | (_ | q)
        · rfl
        · exact absurd rfl hx
        · rfl
      rw [this]
      constructor
      · rintro rfl; exact ⟨[], xs, rfl, by simp⟩
      · rintro ⟨pre, post, h, hp⟩
        cases pre with
        | nil => simp only [List.nil_append, List.cons.injEq] at h; exact h.1
        | cons p pre =>
          simp only [List.cons_append, List.cons.injEq] at h
          exact absurd (h.1.trans (hp p (List.mem_cons_self ..))) hx

end Beep.Validate
