import Verif.Spec.Accepted
import Verif.Props.Inserted
/-
C69: which templates the procedure generators accept.
-/
namespace Beep.Props.Accepted
open Beep MaccorProcedure Spec.MaccorProcedure Spec.Accepted Proof.MaccorProcedure Proof.Inserted

/-- what one statement needs to find -/
def Meets (p : List Step) : Instr → Prop
  | .isType i t => ∃ s, p[i]? = some s ∧ s.stepType = t
  | .isMode i t => ∃ s, p[i]? = some s ∧ s.stepMode = some t
  | .endIs i k t => ∃ s e, p[i]? = some s ∧ EndEntry s k e ∧ e.endType = t
  | .endNe i k v => Differs p i k v
  | .setValue i _ => ∃ s, p[i]? = some s
  | .setLimit i _ _ => HasLimits p i
  | .setEnd i k _ => ∃ s e, p[i]? = some s ∧ EndEntry s k e
  | .loopCnt i _ _ => Looping p i

theorem endAt_iff (s : Step) (k : Sel) (e : EndE) : endAt s k = .ok e ↔ EndEntry s k e := by
  cases k with
  | one =>
    unfold endAt EndEntry
    rcases s.ends with _ | (x | xs) <;> simp
  | nth k =>
    unfold endAt EndEntry
    rcases s.ends with _ | (x | xs)
    · simp
    · simp
    · simp only [Option.some.injEq, Ends.many.injEq, exists_eq_left']
      cases xs[k]? <;> simp

theorem endAt_cases (s : Step) (k : Sel) :
    (∃ e, endAt s k = .ok e ∧ EndEntry s k e) ∨ (∃ x, endAt s k = .error x) ∧ ∀ e, ¬ EndEntry s k e := by
  cases h : endAt s k with
  | ok e => exact .inl ⟨e, rfl, (endAt_iff s k e).mp h⟩
  | error x =>
    refine .inr ⟨⟨x, rfl⟩, fun e he => ?_⟩
    rw [(endAt_iff s k e).mpr he] at h
    cases h

theorem endEntry_unique {s : Step} {k : Sel} {e e' : EndE} (h : EndEntry s k e) (h' : EndEntry s k e') : e = e' := by
  rw [← endAt_iff] at h h'
  rw [h] at h'
  cases h'
  rfl

theorem exec_iff (p : List Step) (c : Instr) : (∃ p', exec p c = .ok p') ↔ Meets p c := by
  cases c with
  | isType i t =>
    simp only [exec, stepAt, Meets, bind, Except.bind]
    cases p[i]? with
    | none => simp
    | some s => by_cases h : s.stepType = t <;> simp [h]
  | isMode i t =>
    simp only [exec, stepAt, Meets, bind, Except.bind]
    cases p[i]? with
    | none => simp
    | some s => by_cases h : s.stepMode = some t <;> simp [h]
  | endIs i k t =>
    simp only [exec, stepAt, Meets, bind, Except.bind]
    cases p[i]? with
    | none => simp
    | some s =>
      rcases endAt_cases s k with ⟨e, he, hE⟩ | ⟨⟨x, hx⟩, hE⟩
      · simp only [he, Option.some.injEq, exists_and_left, exists_eq_left']
        by_cases h : e.endType = t
        · simp only [h, if_true, Except.ok.injEq, exists_eq', true_iff]
          exact ⟨e, hE, h⟩
        · simp only [h, if_false, reduceCtorEq, exists_false, false_iff]
          rintro ⟨e', he', ht⟩
          rw [endEntry_unique hE he'] at h
          exact h ht
      · simp [hx, hE]
  | endNe i k v =>
    simp only [exec, stepAt, Meets, Differs, bind, Except.bind]
    cases p[i]? with
    | none => simp
    | some s =>
      rcases endAt_cases s k with ⟨e, he, hE⟩ | ⟨⟨x, hx⟩, hE⟩
      · simp only [he, Option.some.injEq, exists_and_left, exists_eq_left']
        by_cases h : e.value = v
        · simp only [h, if_true, reduceCtorEq, exists_false, false_iff]
          rintro ⟨e', he', ht⟩
          rw [endEntry_unique hE he'] at h
          exact ht h
        · simp only [h, if_false, Except.ok.injEq, exists_eq', true_iff]
          exact ⟨e, hE, h⟩
      · simp [hx, hE]
  | setValue i v =>
    simp only [exec, stepAt, Meets, bind, Except.bind]
    cases p[i]? <;> simp
  | setLimit i key v =>
    simp only [exec, stepAt, Meets, HasLimits, bind, Except.bind]
    cases p[i]? with
    | none => simp
    | some s => cases h : s.limits <;> simp [h]
  | setEnd i k v =>
    simp only [exec, stepAt, Meets, bind, Except.bind]
    cases p[i]? with
    | none => simp
    | some s =>
      rcases endAt_cases s k with ⟨e, he, hE⟩ | ⟨⟨x, hx⟩, hE⟩
      · simp only [he, Option.some.injEq, exists_and_left, exists_eq_left', Except.ok.injEq, exists_eq', true_iff]
        exact ⟨e, hE⟩
      · simp [hx, hE]
  | loopCnt i v₁ v₂ =>
    simp only [exec, stepAt, Meets, Looping, bind, Except.bind]
    cases p[i]? with
    | none => simp
    | some s =>
      simp only [Option.some.injEq, exists_eq_left']
      by_cases hl : s.stepType.take 4 = "Loop".toList
      · simp only [hl, if_true, true_and]
        by_cases h1 : s.stepType = "Loop 1".toList
        · rw [if_pos h1]
          rcases endAt_cases s .one with ⟨e, he, hE⟩ | ⟨⟨x, hx⟩, hE⟩
          · simp only [he]
            by_cases h : e.endType = "Loop Cnt".toList
            · simp only [h, if_true, Except.ok.injEq, exists_eq', true_iff]
              exact fun _ => ⟨e, hE, h⟩
            · simp only [h, if_false, reduceCtorEq, exists_false, false_iff]
              intro H
              obtain ⟨e', he', ht⟩ := H (.inl h1)
              rw [endEntry_unique (k := .one) hE he'] at h
              exact h ht
          · simp only [hx, reduceCtorEq, exists_false, false_iff]
            intro H
            obtain ⟨e', he', -⟩ := H (.inl h1)
            exact hE e' he'
        · rw [if_neg h1]
          by_cases h2 : s.stepType = "Loop 2".toList
          · rw [if_pos h2]
            rcases endAt_cases s .one with ⟨e, he, hE⟩ | ⟨⟨x, hx⟩, hE⟩
            · simp only [he]
              by_cases h : e.endType = "Loop Cnt".toList
              · simp only [h, if_true, Except.ok.injEq, exists_eq', true_iff]
                exact fun _ => ⟨e, hE, h⟩
              · simp only [h, if_false, reduceCtorEq, exists_false, false_iff]
                intro H
                obtain ⟨e', he', ht⟩ := H (.inr h2)
                rw [endEntry_unique (k := .one) hE he'] at h
                exact h ht
            · simp only [hx, reduceCtorEq, exists_false, false_iff]
              intro H
              obtain ⟨e', he', -⟩ := H (.inr h2)
              exact hE e' he'
          · rw [if_neg h2]
            exact ⟨fun _ H => absurd H (not_or.mpr ⟨h1, h2⟩), fun _ => ⟨_, rfl⟩⟩
      · rw [if_neg hl]
        exact ⟨fun ⟨_, H⟩ => (nomatch H), fun H => absurd H.1 hl⟩

theorem same_endEntry {s s' : Step} (h : SameEnds s.ends s'.ends) (k : Sel) :
    (∀ e, EndEntry s k e → ∃ e', EndEntry s' k e' ∧ SameEnd e e') ∧
    ∀ e', EndEntry s' k e' → ∃ e, EndEntry s k e ∧ SameEnd e e' := by
  cases k with
  | one =>
    unfold EndEntry
    revert h
    rcases s.ends with _ | (x | xs) <;> rcases s'.ends with _ | (y | ys) <;> simp [SameEnds]
  | nth k =>
    unfold EndEntry
    revert h
    rcases s.ends with _ | (x | xs) <;> rcases s'.ends with _ | (y | ys) <;>
      simp only [SameEnds, reduceCtorEq, false_and, exists_false, false_implies, implies_true, and_self,
        Option.some.injEq, Ends.many.injEq, exists_eq_left']
    intro h
    have hget := List.forall₂_iff_get.mp h
    constructor
    · intro e he
      obtain ⟨hk, rfl⟩ := List.getElem?_eq_some_iff.mp he
      have hk' : k < ys.length := by rw [← hget.1]; exact hk
      exact ⟨ys[k], List.getElem?_eq_getElem hk', hget.2 k hk hk'⟩
    · intro e he
      obtain ⟨hk, rfl⟩ := List.getElem?_eq_some_iff.mp he
      have hk' : k < xs.length := by rw [hget.1]; exact hk
      exact ⟨xs[k], List.getElem?_eq_getElem hk', hget.2 k hk' hk⟩

theorem same_step {p p' : List Step} (h : List.Forall₂ SameStructure p p') (i : Nat) :
    (p[i]? = none ∧ p'[i]? = none) ∨ ∃ s s', p[i]? = some s ∧ p'[i]? = some s' ∧ SameStructure s s' := by
  have hget := List.forall₂_iff_get.mp h
  by_cases hi : i < p.length
  · have hi' : i < p'.length := by rw [← hget.1]; exact hi
    exact .inr ⟨p[i], p'[i], List.getElem?_eq_getElem hi, List.getElem?_eq_getElem hi', hget.2 i hi hi'⟩
  · left
    rw [List.getElem?_eq_none_iff, List.getElem?_eq_none_iff, ← hget.1]
    omega

/-- no statement of the list tests the threshold in a place that `c` assigns -/
def Keeps (c : Instr) (cs : List Instr) : Prop :=
  ∀ i k v, Instr.endNe i k v ∈ cs → writes c ≠ some (.ending i k)

/-- thresholds are tested before they are assigned -/
def Fresh : List Instr → Prop
  | [] => True
  | c :: cs => Keeps c cs ∧ Fresh cs

theorem meets_kept {p p' : List Step} {c d : Instr} (h : exec p c = .ok p')
    (hd : ∀ i k v, d = .endNe i k v → writes c ≠ some (.ending i k)) : Meets p' d ↔ Meets p d := by
  have hr : run [c] p = .ok p' := by simp [run, h, bind, Except.bind]
  have hs := (run_only hr).1
  have key : ∀ i, (p[i]? = none ∧ p'[i]? = none) ∨
      ∃ s s', p[i]? = some s ∧ p'[i]? = some s' ∧ SameStructure s s' := same_step hs
  cases d with
  | isType i t =>
    rcases key i with ⟨h1, h2⟩ | ⟨s, s', h1, h2, hS⟩
    · simp [Meets, h1, h2]
    · simp [Meets, h1, h2, hS.1]
  | isMode i t =>
    rcases key i with ⟨h1, h2⟩ | ⟨s, s', h1, h2, hS⟩
    · simp [Meets, h1, h2]
    · simp [Meets, h1, h2, hS.2.1]
  | endIs i k t =>
    rcases key i with ⟨h1, h2⟩ | ⟨s, s', h1, h2, hS⟩
    · simp [Meets, h1, h2]
    · simp only [Meets, h1, h2, Option.some.injEq, exists_and_left, exists_eq_left']
      obtain ⟨e1, e2⟩ := same_endEntry hS.2.2.2.2.1 k
      constructor
      · rintro ⟨e, he, ht⟩
        obtain ⟨e', he', hS'⟩ := e2 e he
        exact ⟨e', he', by rw [← ht, hS'.2.1]⟩
      · rintro ⟨e, he, ht⟩
        obtain ⟨e', he', hS'⟩ := e1 e he
        exact ⟨e', he', by rw [hS'.2.1, ht]⟩
  | endNe i k v =>
    have hv := exec_other h (hd i k v rfl)
    rcases key i with ⟨h1, h2⟩ | ⟨s, s', h1, h2, hS⟩
    · simp [Meets, Differs, h1, h2]
    · simp only [Meets, Differs, h1, h2, Option.some.injEq, exists_and_left, exists_eq_left']
      obtain ⟨e1, e2⟩ := same_endEntry hS.2.2.2.2.1 k
      simp only [Proof.Inserted.read, h1, h2, Option.bind_some] at hv
      have hval : ∀ e e', EndEntry s k e → EndEntry s' k e' → e'.value = e.value := by
        intro e e' he he'
        rw [endOf_endAt ((endAt_iff s k e).mpr he), endOf_endAt ((endAt_iff s' k e').mpr he')] at hv
        simpa using hv
      constructor
      · rintro ⟨e, he, ht⟩
        obtain ⟨e', he', -⟩ := e2 e he
        exact ⟨e', he', by rw [← hval _ _ he' he]; exact ht⟩
      · rintro ⟨e, he, ht⟩
        obtain ⟨e', he', -⟩ := e1 e he
        exact ⟨e', he', by rw [hval _ _ he he']; exact ht⟩
  | setValue i v =>
    rcases key i with ⟨h1, h2⟩ | ⟨s, s', h1, h2, hS⟩ <;> simp [Meets, h1, h2]
  | setLimit i key' v =>
    rcases key i with ⟨h1, h2⟩ | ⟨s, s', h1, h2, hS⟩
    · simp [Meets, HasLimits, h1, h2]
    · simp only [Meets, HasLimits, h1, h2, Option.some.injEq, exists_and_left, exists_eq_left']
      rw [← Option.isSome_iff_exists, ← Option.isSome_iff_exists, hS.2.2.2.2.2]
  | setEnd i k v =>
    rcases key i with ⟨h1, h2⟩ | ⟨s, s', h1, h2, hS⟩
    · simp [Meets, h1, h2]
    · simp only [Meets, h1, h2, Option.some.injEq, exists_and_left, exists_eq_left']
      obtain ⟨e1, e2⟩ := same_endEntry hS.2.2.2.2.1 k
      exact ⟨fun ⟨e, he⟩ => (e2 e he).imp fun _ x => x.1, fun ⟨e, he⟩ => (e1 e he).imp fun _ x => x.1⟩
  | loopCnt i v₁ v₂ =>
    rcases key i with ⟨h1, h2⟩ | ⟨s, s', h1, h2, hS⟩
    · simp [Meets, Looping, h1, h2]
    · simp only [Meets, Looping, h1, h2, Option.some.injEq, exists_eq_left', hS.1]
      obtain ⟨e1, e2⟩ := same_endEntry hS.2.2.2.2.1 .one
      refine and_congr_right fun _ => imp_congr_right fun _ => ?_
      constructor
      · rintro ⟨e, he, ht⟩
        obtain ⟨e', he', hS'⟩ := e2 e he
        exact ⟨e', he', by rw [← ht, hS'.2.1]⟩
      · rintro ⟨e, he, ht⟩
        obtain ⟨e', he', hS'⟩ := e1 e he
        exact ⟨e', he', by rw [hS'.2.1, ht]⟩

/-- a program whose threshold tests come before the assignments runs through exactly when every
statement finds what it needs in the procedure it is started on -/
theorem run_iff (cs : List Instr) (hf : Fresh cs) (p : List Step) :
    (∃ p', run cs p = .ok p') ↔ ∀ c ∈ cs, Meets p c := by
  induction cs generalizing p with
  | nil => simp [run]
  | cons c cs ih =>
    rw [List.forall_mem_cons, ← exec_iff]
    constructor
    · rintro ⟨p', h⟩
      simp only [run, bind, Except.bind] at h
      split at h
      · cases h
      · rename_i q hq
        refine ⟨⟨q, hq⟩, fun d hd => ?_⟩
        exact (meets_kept hq (fun i k v e => hf.1 i k v (e ▸ hd))).mp ((ih hf.2 q).mp ⟨p', h⟩ d hd)
    · rintro ⟨⟨q, hq⟩, H⟩
      obtain ⟨p', hp'⟩ := (ih hf.2 q).mpr (fun d hd =>
        (meets_kept hq (fun i k v e => hf.1 i k v (e ▸ hd))).mpr (H d hd))
      exact ⟨p', by simp only [run, bind, Except.bind, hq, hp']⟩

theorem fresh_of_none {cs : List Instr} (h : ∀ i k v, Instr.endNe i k v ∉ cs) : Fresh cs := by
  induction cs with
  | nil => trivial
  | cons c cs ih =>
    exact ⟨fun i k v hm => absurd (List.mem_cons_of_mem _ hm) (h i k v),
      ih fun i k v hm => h i k v (List.mem_cons_of_mem _ hm)⟩

theorem has_of_step {p : List Step} {i : Nat} {ty mode : String} (h : IsStep p i ty mode) : ∃ s, p[i]? = some s :=
  ⟨_, h.choose_spec.1⟩

theorem entry_of_endOn {p : List Step} {i : Nat} {k : Sel} {ty : String} (h : EndOn p i k ty) :
    ∃ s e, p[i]? = some s ∧ EndEntry s k e := by
  obtain ⟨s, e, h1, h2, -⟩ := h
  exact ⟨s, e, h1, h2⟩

theorem step_iff {p : List Step} {i : Nat} {ty mode : String} :
    (∃ s, p[i]? = some s ∧ s.stepType = ty.toList) ∧ (∃ s, p[i]? = some s ∧ s.stepMode = some mode.toList) ↔
      IsStep p i ty mode := by
  unfold IsStep
  cases p[i]? <;> simp

theorem meets_expect {p : List Step} {i : Nat} {ty mode : String} :
    (∀ c ∈ expect i ty mode, Meets p c) ↔ IsStep p i ty mode := by
  simp only [expect, List.forall_mem_cons, List.not_mem_nil, false_imp_iff, implies_true, and_true]
  exact step_iff

/-- the list of requirements of a list of statements, one by one -/
theorem meets_cons {p : List Step} {c : Instr} {cs : List Instr} :
    (∀ d ∈ c :: cs, Meets p d) ↔ Meets p c ∧ ∀ d ∈ cs, Meets p d := List.forall_mem_cons

theorem meets_nil {p : List Step} : (∀ d ∈ ([] : List Instr), Meets p d) ↔ True := by simp

theorem meets_append {p : List Step} {cs ds : List Instr} :
    (∀ d ∈ cs ++ ds, Meets p d) ↔ (∀ d ∈ cs, Meets p d) ∧ ∀ d ∈ ds, Meets p d := List.forall_mem_append

theorem meets_value {p : List Step} {i : Nat} {ty mode : String} {v : Val} (h : IsStep p i ty mode) :
    Meets p (.setValue i v) := has_of_step h

theorem meets_end {p : List Step} {i : Nat} {k : Sel} {ty : String} {v : Val} (h : EndOn p i k ty) :
    Meets p (.setEnd i k v) := entry_of_endOn h

theorem meets_resistance (p : List Step) (i : Nat) (r : RegParam) :
    (∀ c ∈ insertResistance i r, Meets p c) ↔ IsStep p i "Charge" "Current" := by
  simp only [insertResistance, meets_append, meets_expect, meets_cons, meets_nil, and_true]
  exact ⟨fun h => h.1, fun h => ⟨h, meets_value h⟩⟩

theorem meets_tail (p : List Step) (i : Nat) (r : RegParam) :
    (∀ c ∈ chargeTail i r, Meets p c) ↔
      IsStep p (i + 1) "Charge" "Current" ∧ EndOn p (i + 1) (.nth 0) "Voltage" ∧
      IsStep p (i + 2) "Charge" "Voltage" ∧ EndOn p (i + 2) (.nth 0) "StepTime" ∧ Resting p (i + 3) := by
  simp only [chargeTail, meets_append, meets_expect, meets_cons, meets_nil, and_true]
  constructor
  · rintro ⟨⟨⟨a, -, b, -⟩, c⟩, -, d, -, e, f, -⟩
    exact ⟨a, b, c, d, e, f⟩
  · rintro ⟨a, b, c, d, e, f⟩
    exact ⟨⟨⟨a, meets_value a, b, meets_end b⟩, c⟩, meets_value c, d, meets_end d, e, f, meets_end f⟩

theorem meets_chargeV2 (p : List Step) (i : Nat) (r : RegParam) (prog : List Instr)
    (h : insertChargeV2 i r = .ok prog) : (∀ c ∈ prog, Meets p c) ↔ FitsCharge p i := by
  simp only [insertChargeV2, bind, Except.bind] at h
  split at h
  · cases h
  cases h
  simp only [meets_append, meets_expect, meets_cons, meets_nil, and_true, meets_tail]
  constructor
  · rintro ⟨⟨a, -, b, -⟩, c⟩
    exact ⟨a, b, c⟩
  · rintro ⟨a, b, c⟩
    exact ⟨⟨a, meets_value a, b, meets_end b⟩, c⟩

theorem meets_chargeV3 (p : List Step) (i : Nat) (r : RegParam) (prog : List Instr)
    (h : insertChargeV3 i r = .ok prog) : (∀ c ∈ prog, Meets p c) ↔ FitsChargeV3 p i := by
  simp only [insertChargeV3, bind, Except.bind] at h
  split at h
  · cases h
  cases h
  simp only [meets_append, meets_expect, meets_cons, meets_nil, and_true, meets_tail]
  constructor
  · rintro ⟨⟨a, -, b, -, c, -⟩, d⟩
    exact ⟨⟨a, b, d⟩, c⟩
  · rintro ⟨⟨a, b, d⟩, c⟩
    refine ⟨⟨a, meets_value a, b, meets_end b, c, ?_⟩, d⟩
    obtain ⟨s, e, h1, h2, -⟩ := c
    exact ⟨s, e, h1, h2⟩

theorem meets_discharge (p : List Step) (i : Nat) (r : RegParam) :
    (∀ c ∈ insertDischarge i r, Meets p c) ↔ FitsDischarge p i := by
  simp only [insertDischarge, meets_append, meets_expect, meets_cons, meets_nil, and_true]
  constructor
  · rintro ⟨a, -, b, -, c, d, -, e⟩
    exact ⟨a, b, ⟨c, d⟩, e⟩
  · rintro ⟨a, b, ⟨c, d⟩, e⟩
    exact ⟨a, meets_value a, b, meets_end b, c, d, meets_end d, e⟩

theorem meets_storage (k : Sel) (p : List Step) (i : Nat) (r : RegParam) :
    (∀ c ∈ insertStorage k i r, Meets p c) ↔ FitsStorage k p i := by
  simp only [insertStorage, meets_append, meets_expect, meets_cons, meets_nil, and_true]
  constructor
  · rintro ⟨⟨⟨a, -, b, c, -⟩, d⟩, -, e, -⟩
    exact ⟨a, b, c, d, e⟩
  · rintro ⟨a, b, c, d, e⟩
    exact ⟨⟨⟨a, meets_value a, b, c, meets_end c⟩, d⟩, meets_value d, e, meets_end e⟩

theorem meets_initial (p : List Step) (i : Nat) (index : Int) :
    (∀ c ∈ insertInitialRest i index, Meets p c) ↔ Resting p i := by
  simp only [insertInitialRest, meets_cons, meets_nil, and_true]
  exact ⟨fun ⟨a, b, _⟩ => ⟨a, b⟩, fun ⟨a, b⟩ => ⟨a, b, meets_end b⟩⟩

theorem meets_reset (p : List Step) (i : Nat) (cap : Rat) (d : DiagParam) :
    (∀ c ∈ insertReset i cap d, Meets p c) ↔ FitsPair p i := by
  simp only [insertReset, meets_append, meets_expect, meets_cons, meets_nil, and_true]
  constructor
  · rintro ⟨⟨⟨a, -, b, c, -⟩, d⟩, -, e, -⟩
    exact ⟨a, b, c, d, e⟩
  · rintro ⟨a, b, c, d, e⟩
    exact ⟨⟨⟨a, meets_value a, b, c, meets_end c⟩, d⟩, meets_value d, e, meets_end e⟩

theorem meets_pair (p : List Step) (i : Nat) (cap rate : Rat) (d : DiagParam) :
    (∀ c ∈ rptPair i cap rate d, Meets p c) ↔ FitsPair p i := by
  simp only [rptPair, meets_append, meets_expect, meets_cons, meets_nil, and_true]
  constructor
  · rintro ⟨⟨⟨a, -, b, c, -⟩, d⟩, -, e, -⟩
    exact ⟨a, b, c, d, e⟩
  · rintro ⟨a, b, c, d, e⟩
    exact ⟨⟨⟨a, meets_value a, b, c, meets_end c⟩, d⟩, meets_value d, e, meets_end e⟩

theorem meets_rpt (p : List Step) (i : Nat) (cap : Rat) (d : DiagParam) :
    (∀ c ∈ insertRpt i cap d, Meets p c) ↔ FitsRpt p i := by
  simp only [insertRpt, meets_append, meets_pair, FitsRpt, and_assoc]

theorem hppc_ok (i : Nat) (cap : Rat) (d : DiagParam) :
    (∃ prog, insertHppc i cap d = .ok prog) ↔ d.hppcBaseline ≠ 0 := by
  unfold insertHppc
  split
  · rename_i h; simp [h]
  · rename_i h; simp [h]

theorem meets_hppc (p : List Step) (i : Nat) (cap : Rat) (d : DiagParam) (prog : List Instr)
    (h : insertHppc i cap d = .ok prog) : (∀ c ∈ prog, Meets p c) ↔ FitsHppc p i := by
  unfold insertHppc at h
  split at h
  · cases h
  cases h
  simp only [meets_append, meets_expect, meets_cons, meets_nil, and_true]
  constructor
  · rintro ⟨⟨⟨⟨⟨⟨⟨⟨⟨a1, -, a2, a3, -, b1, b2, -⟩, c1⟩, -, c2, -, c3, -, d1, d2, -⟩, e1⟩, -, e2, -, e3, -⟩,
      f1⟩, -, f2, -, f3, -⟩, g1⟩, -, g2, g3, -⟩
    exact ⟨⟨a1, a2, a3⟩, ⟨b1, b2⟩, ⟨c1, c2, c3⟩, ⟨d1, d2⟩, ⟨e1, e2, e3⟩, ⟨f1, f2, f3⟩, g1, g2, g3⟩
  · rintro ⟨⟨a1, a2, a3⟩, ⟨b1, b2⟩, ⟨c1, c2, c3⟩, ⟨d1, d2⟩, ⟨e1, e2, e3⟩, ⟨f1, f2, f3⟩, g1, g2, g3⟩
    exact ⟨⟨⟨⟨⟨⟨⟨⟨⟨a1, meets_value a1, a2, a3, meets_end a3, b1, b2, meets_end b2⟩, c1⟩, meets_value c1, c2, meets_end c2,
      c3, meets_end c3, d1, d2, meets_end d2⟩, e1⟩, meets_value e1, e2, meets_end e2, e3, meets_end e3⟩,
      f1⟩, meets_value f1, f2, meets_end f2, f3, meets_end f3⟩, g1⟩, meets_value g1, g2, g3, meets_end g3⟩

/-! ### C69: what is accepted -/

theorem window_ok (percent current : Rat) : (∃ t, window percent current = .ok t) ↔ current ≠ 0 := by
  unfold window
  split <;> rename_i h <;> simp [h]

theorem chargeV2_ok (i : Nat) (r : RegParam) : (∃ prog, insertChargeV2 i r = .ok prog) ↔ r.chargeCC1 ≠ 0 := by
  rw [← window_ok r.chargePercentLimit1]
  simp only [insertChargeV2, bind, Except.bind]
  cases window r.chargePercentLimit1 r.chargeCC1 <;> simp

theorem chargeV3_ok (i : Nat) (r : RegParam) : (∃ prog, insertChargeV3 i r = .ok prog) ↔ r.chargeCC1 ≠ 0 := by
  rw [← window_ok r.chargePercentLimit1]
  simp only [insertChargeV3, bind, Except.bind]
  cases window r.chargePercentLimit1 r.chargeCC1 <;> simp

theorem noTest_V2 {i : Nat} {r : RegParam} {prog : List Instr} (h : insertChargeV2 i r = .ok prog)
    (j : Nat) (k : Sel) (v : Val) : Instr.endNe j k v ∉ prog := by
  simp only [insertChargeV2, bind, Except.bind] at h
  split at h
  · cases h
  cases h
  simp [expect, chargeTail]

theorem noTest_hppc {i : Nat} {cap : Rat} {d : DiagParam} {prog : List Instr} (h : insertHppc i cap d = .ok prog)
    (j : Nat) (k : Sel) (v : Val) : Instr.endNe j k v ∉ prog := by
  unfold insertHppc at h
  split at h
  · cases h
  cases h
  simp [expect]

/-- C69 (acceptance, version 2).  A procedure is generated exactly when the cutoff voltages are in
order, the first charging current is not zero and the template has the steps where they are expected. -/
theorem C69_acceptsV2 (r : RegParam) (p : List Step) :
    (∃ p', regcycleV2 r p = .ok p') ↔
      r.dischargeCutoffVoltage < r.chargeCutoffVoltage ∧ r.chargeCC1 ≠ 0 ∧
      IsStep p 1 "Charge" "Current" ∧ FitsCharge p 28 ∧ FitsDischarge p 32 ∧ FitsCharge p 60 ∧
      FitsDischarge p 64 ∧ FitsStorage .one p 69 := by
  simp only [regcycleV2, bind, Except.bind]
  by_cases hv : r.chargeCutoffVoltage > r.dischargeCutoffVoltage
  · rw [if_pos hv]
    by_cases hc : r.chargeCC1 = 0
    · have : ∀ i, ∃ e, insertChargeV2 i r = .error e := by
        intro i
        cases h : insertChargeV2 i r with
        | error e => exact ⟨e, rfl⟩
        | ok x => exact absurd hc ((chargeV2_ok i r).mp ⟨x, h⟩)
      obtain ⟨e, he⟩ := this 28
      simp [he, hc]
    · obtain ⟨c₁, h₁⟩ := (chargeV2_ok 28 r).mpr hc
      obtain ⟨c₂, h₂⟩ := (chargeV2_ok 60 r).mpr hc
      simp only [h₁, h₂]
      rw [run_iff]
      · simp only [meets_append, meets_resistance, meets_chargeV2 p 28 r c₁ h₁, meets_chargeV2 p 60 r c₂ h₂,
          meets_discharge, meets_storage]
        exact ⟨fun ⟨⟨⟨⟨⟨a, b⟩, c⟩, d⟩, e⟩, f⟩ => ⟨hv, hc, a, b, c, d, e, f⟩,
          fun ⟨_, _, a, b, c, d, e, f⟩ => ⟨⟨⟨⟨⟨a, b⟩, c⟩, d⟩, e⟩, f⟩⟩
      · apply fresh_of_none
        intro i k v
        simp only [List.mem_append, not_or]
        refine ⟨⟨⟨⟨⟨?_, noTest_V2 h₁ i k v⟩, ?_⟩, noTest_V2 h₂ i k v⟩, ?_⟩, ?_⟩ <;>
          simp [insertResistance, insertDischarge, insertStorage, expect]
  · rw [if_neg hv]
    exact ⟨fun ⟨_, h⟩ => (nomatch h), fun h => absurd h.1 hv⟩

theorem fresh_append {a b : List Instr} (ha : Fresh a) (hb : Fresh b)
    (h : ∀ c ∈ a, Keeps c b) : Fresh (a ++ b) := by
  induction a with
  | nil => exact hb
  | cons c a ih =>
    refine ⟨fun i k v hm => ?_, ih ha.2 fun d hd => h d (List.mem_cons_of_mem _ hd)⟩
    rcases List.mem_append.mp hm with hm | hm
    · exact ha.1 i k v hm
    · exact h c List.mem_cons_self i k v hm

theorem fresh_V3 {i : Nat} {r : RegParam} {prog : List Instr} (h : insertChargeV3 i r = .ok prog) :
    Fresh prog ∧ (∀ j k v, Instr.endNe j k v ∈ prog → j = i) ∧
      ∀ c ∈ prog, ∀ j, target c = some j → i ≤ j ∧ j ≤ i + 3 := by
  simp only [insertChargeV3, bind, Except.bind] at h
  split at h
  · cases h
  cases h
  refine ⟨?_, ?_, ?_⟩
  · simp only [expect, chargeTail, List.cons_append, List.nil_append, Fresh, Keeps, writes, List.mem_cons,
      reduceCtorEq, false_or, List.not_mem_nil, or_false, Instr.endNe.injEq, Option.some.injEq, Slot.ending.injEq,
      false_imp_iff, implies_true, not_false_eq_true, and_true, ne_eq]
    refine ⟨trivial, trivial, trivial, trivial, ?_⟩
    rintro i k v ⟨rfl, rfl, -⟩ ⟨-, h⟩
    cases h
  · intro j k v
    simp only [expect, chargeTail, List.mem_append, List.mem_cons, List.not_mem_nil, reduceCtorEq, or_false, false_or,
      Instr.endNe.injEq]
    exact fun h => h.1
  · intro c hc j hj
    simp only [expect, chargeTail, List.mem_append, List.mem_cons, List.not_mem_nil, or_false] at hc
    rcases hc with ((hc | hc) | hc | hc | hc | hc | hc) | ((((hc | hc) | hc | hc | hc) | hc | hc) | hc | hc | hc | hc | hc | hc) <;>
      subst hc <;> simp only [target, Option.some.injEq, reduceCtorEq] at hj <;> omega

theorem keeps_of_target {c : Instr} {cs : List Instr} {i : Nat}
    (h : ∀ j k v, Instr.endNe j k v ∈ cs → j = i) (ht : target c ≠ some i) : Keeps c cs := by
  intro j k v hm hw
  obtain rfl := h j k v hm
  cases c <;> simp only [writes, reduceCtorEq, Option.some.injEq, Slot.ending.injEq] at hw
  · exact ht (by simp [target, hw.1])
  · exact ht (by simp [target, hw.1])

/-- C69 (acceptance, version 3) -/
theorem C69_acceptsV3 (index : Int) (r : RegParam) (p : List Step) :
    (∃ p', regcycleV3 index r p = .ok p') ↔
      r.dischargeCutoffVoltage < r.chargeCutoffVoltage ∧ r.chargeCC1 ≠ 0 ∧
      Resting p 0 ∧ IsStep p 1 "Charge" "Current" ∧ FitsChargeV3 p 28 ∧ FitsDischarge p 32 ∧
      FitsChargeV3 p 60 ∧ FitsDischarge p 64 ∧ FitsStorage (.nth 0) p 93 := by
  simp only [regcycleV3, bind, Except.bind]
  by_cases hv : r.chargeCutoffVoltage > r.dischargeCutoffVoltage
  · rw [if_pos hv]
    by_cases hc : r.chargeCC1 = 0
    · have : ∀ i, ∃ e, insertChargeV3 i r = .error e := by
        intro i
        cases h : insertChargeV3 i r with
        | error e => exact ⟨e, rfl⟩
        | ok x => exact absurd hc ((chargeV3_ok i r).mp ⟨x, h⟩)
      obtain ⟨e, he⟩ := this 28
      simp [he, hc]
    · obtain ⟨c₁, h₁⟩ := (chargeV3_ok 28 r).mpr hc
      obtain ⟨c₂, h₂⟩ := (chargeV3_ok 60 r).mpr hc
      simp only [h₁, h₂]
      rw [run_iff]
      · simp only [meets_append, meets_initial, meets_resistance, meets_chargeV3 p 28 r c₁ h₁, meets_chargeV3 p 60 r c₂ h₂,
          meets_discharge, meets_storage]
        exact ⟨fun ⟨⟨⟨⟨⟨⟨z, a⟩, b⟩, c⟩, d⟩, e⟩, f⟩ => ⟨hv, hc, z, a, b, c, d, e, f⟩,
          fun ⟨_, _, z, a, b, c, d, e, f⟩ => ⟨⟨⟨⟨⟨⟨z, a⟩, b⟩, c⟩, d⟩, e⟩, f⟩⟩
      · obtain ⟨f1, n1, t1⟩ := fresh_V3 h₁
        obtain ⟨f2, n2, t2⟩ := fresh_V3 h₂
        have rest : ∀ (cs : List Instr), (∀ i k v, Instr.endNe i k v ∉ cs) → ∀ c, Keeps c cs :=
          fun cs h c i k v hm => absurd hm (h i k v)
        have d1 : ∀ i j k v, Instr.endNe j k v ∉ insertDischarge i r := by
          intro i j k v; simp [insertDischarge, expect]
        have s1 : ∀ j k v, Instr.endNe j k v ∉ insertStorage (.nth 0) 93 r := by
          intro j k v; simp [insertStorage, expect]
        have a0 : ∀ j k v, Instr.endNe j k v ∉ insertInitialRest 0 index ++ insertResistance 1 r := by
          intro j k v; simp [insertInitialRest, insertResistance, expect]
        have t0 : ∀ c ∈ insertInitialRest 0 index ++ insertResistance 1 r, ∀ j, target c = some j → j ≤ 1 := by
          intro c hc j hj
          simp only [insertInitialRest, insertResistance, expect, List.mem_append, List.mem_cons, List.not_mem_nil, or_false] at hc
          rcases hc with (hc | hc | hc) | ((hc | hc) | hc) <;> subst hc <;>
            simp only [target, Option.some.injEq, reduceCtorEq] at hj <;> omega
        have t32 : ∀ c ∈ insertDischarge 32 r, ∀ j, target c = some j → j ≤ 35 := by
          intro c hc j hj
          simp only [insertDischarge, expect, List.mem_append, List.mem_cons, List.not_mem_nil, or_false] at hc
          rcases hc with (hc | hc) | hc | hc | hc | hc | hc | hc | hc <;> subst hc <;>
            simp only [target, Option.some.injEq, reduceCtorEq] at hj <;> omega
        refine fresh_append (fresh_append (fresh_append (fresh_append (fresh_append (fresh_of_none a0) f1 ?_)
          (fresh_of_none (d1 32)) ?_) f2 ?_) (fresh_of_none (d1 64)) ?_) (fresh_of_none s1) ?_
        · intro c hc
          refine keeps_of_target n1 fun ht => ?_
          have := t0 c hc _ ht
          omega
        · exact fun c _ => rest _ (d1 32) c
        · intro c hc
          refine keeps_of_target n2 fun ht => ?_
          rcases List.mem_append.mp hc with hc | hc
          · rcases List.mem_append.mp hc with hc | hc
            · have := t0 c hc _ ht
              omega
            · have := t1 c hc _ ht
              omega
          · have := t32 c hc _ ht
            omega
        · exact fun c _ => rest _ (d1 64) c
        · exact fun c _ => rest _ s1 c
  · rw [if_neg hv]
    exact ⟨fun ⟨_, h⟩ => (nomatch h), fun h => absurd h.1 hv⟩

theorem noTest_block {a c : Nat} {cap : Rat} {d : DiagParam} (j : Nat) (k : Sel) (v : Val) :
    Instr.endNe j k v ∉ insertReset a cap d ∧ Instr.endNe j k v ∉ insertRpt c cap d := by
  constructor
  · simp [insertReset, expect]
  · simp [insertRpt, rptPair, expect]

/-- C69 (acceptance, diagnostics).  The diagnostics are inserted exactly when the baseline rate of the
pulse power cycle is not zero and the template has the steps where they are expected. -/
theorem C69_accepts_diagnosticsV2 (cap : Rat) (d : DiagParam) (p : List Step) :
    (∃ prog p', diagCycleV2 cap d = .ok prog ∧ run prog p = .ok p') ↔
      d.hppcBaseline ≠ 0 ∧ FitsDiagnostic p 4 8 18 ∧ FitsDiagnostic p 37 40 50 := by
  simp only [diagCycleV2, bind, Except.bind]
  by_cases hb : d.hppcBaseline = 0
  · cases h : insertHppc 8 cap d with
    | error e => simp [hb]
    | ok x => exact absurd hb ((hppc_ok 8 cap d).mp ⟨x, h⟩)
  · obtain ⟨a, ha⟩ := (hppc_ok 8 cap d).mpr hb
    obtain ⟨b, hb'⟩ := (hppc_ok 40 cap d).mpr hb
    simp only [ha, hb', Except.ok.injEq, exists_and_left, exists_eq_left']
    rw [run_iff]
    · simp only [meets_append, meets_reset, meets_rpt, meets_hppc p 8 cap d a ha, meets_hppc p 40 cap d b hb',
        FitsDiagnostic]
      exact ⟨fun ⟨⟨⟨⟨⟨a, b⟩, c⟩, d⟩, e⟩, f⟩ => ⟨hb, ⟨a, b, c⟩, d, e, f⟩,
        fun ⟨_, ⟨a, b, c⟩, d, e, f⟩ => ⟨⟨⟨⟨⟨a, b⟩, c⟩, d⟩, e⟩, f⟩⟩
    · apply fresh_of_none
      intro i k v
      simp only [List.mem_append, not_or]
      exact ⟨⟨⟨⟨⟨(noTest_block (c := 0) i k v).1, noTest_hppc ha i k v⟩, (noTest_block (a := 0) i k v).2⟩,
        (noTest_block (c := 0) i k v).1⟩, noTest_hppc hb' i k v⟩, (noTest_block (a := 0) i k v).2⟩

/-- C69 (acceptance, diagnostics of version 3) -/
theorem C69_accepts_diagnosticsV3 (cap : Rat) (d : DiagParam) (p : List Step) :
    (∃ prog p', diagCycleV3 cap d = .ok prog ∧ run prog p = .ok p') ↔
      d.hppcBaseline ≠ 0 ∧ FitsDiagnostic p 4 8 18 ∧ FitsDiagnostic p 37 40 50 ∧ FitsDiagnostic p 70 74 84 := by
  simp only [diagCycleV3, diagCycleV2, bind, Except.bind]
  by_cases hb : d.hppcBaseline = 0
  · cases h : insertHppc 8 cap d with
    | error e => simp [hb]
    | ok x => exact absurd hb ((hppc_ok 8 cap d).mp ⟨x, h⟩)
  · obtain ⟨a, ha⟩ := (hppc_ok 8 cap d).mpr hb
    obtain ⟨b, hb'⟩ := (hppc_ok 40 cap d).mpr hb
    obtain ⟨c, hc'⟩ := (hppc_ok 74 cap d).mpr hb
    simp only [ha, hb', hc', Except.ok.injEq, exists_and_left, exists_eq_left']
    rw [run_iff]
    · simp only [meets_append, meets_reset, meets_rpt, meets_hppc p 8 cap d a ha, meets_hppc p 40 cap d b hb',
        meets_hppc p 74 cap d c hc', FitsDiagnostic]
      exact ⟨fun ⟨⟨⟨⟨⟨⟨⟨⟨a, b⟩, c⟩, d⟩, e⟩, f⟩, g⟩, h⟩, i⟩ => ⟨hb, ⟨a, b, c⟩, ⟨d, e, f⟩, g, h, i⟩,
        fun ⟨_, ⟨a, b, c⟩, ⟨d, e, f⟩, g, h, i⟩ => ⟨⟨⟨⟨⟨⟨⟨⟨a, b⟩, c⟩, d⟩, e⟩, f⟩, g⟩, h⟩, i⟩⟩
    · apply fresh_of_none
      intro i k v
      simp only [List.mem_append, not_or]
      exact ⟨⟨⟨⟨⟨⟨⟨⟨(noTest_block (c := 0) i k v).1, noTest_hppc ha i k v⟩, (noTest_block (a := 0) i k v).2⟩,
        (noTest_block (c := 0) i k v).1⟩, noTest_hppc hb' i k v⟩, (noTest_block (a := 0) i k v).2⟩,
        (noTest_block (c := 0) i k v).1⟩, noTest_hppc hc' i k v⟩, (noTest_block (a := 0) i k v).2⟩

/-! ### non-vacuity: the template of version 3 is accepted, and refused without its first step -/

example : (regcycleV3 7 (Props.MaccorProcedure.params 15) Props.Inserted.template).isOk = true := by decide +kernel

example : (regcycleV3 7 (Props.MaccorProcedure.params 15) Props.Inserted.template.tail).isOk = false := by
  decide +kernel

example : FitsChargeV3 Props.Inserted.template 28 ∧ FitsStorage (.nth 0) Props.Inserted.template 93 := by
  have h : ∃ p', regcycleV3 7 (Props.MaccorProcedure.params 15) Props.Inserted.template = .ok p' := by
    have h : (regcycleV3 7 (Props.MaccorProcedure.params 15) Props.Inserted.template).isOk = true := by
      decide +kernel
    revert h
    cases regcycleV3 7 (Props.MaccorProcedure.params 15) Props.Inserted.template with
    | ok p => exact fun _ => ⟨p, rfl⟩
    | error e => exact fun h => (nomatch h)
  obtain ⟨-, -, -, -, h1, -, -, -, h2⟩ := (C69_acceptsV3 _ _ _).mp h
  exact ⟨h1, h2⟩

end Beep.Props.Accepted
