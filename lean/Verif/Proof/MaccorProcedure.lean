import Verif.Spec.MaccorProcedure
import Verif.Proof.Base
import Verif.Proof.Text
import Mathlib.Data.Rat.Floor
import Mathlib.Algebra.Order.Floor.Ring
/-
Lemmas about the model of Maccor procedures.
-/
namespace Beep.Proof.MaccorProcedure
open Beep Text MaccorProcedure Spec.MaccorProcedure

/-! ### Texts -/

theorem pads_center (w : Nat) (s : Str) : Pads w s (center w s) := by
  refine ⟨⟨_, _, rfl⟩, ?_⟩
  simp only [center, List.length_append, List.length_replicate]
  have h1 : (w - s.length) % 2 < 2 := Nat.mod_lt _ (by omega)
  have h2 : w % 2 < 2 := Nat.mod_lt _ (by omega)
  have h3 : ((w - s.length) % 2) * (w % 2) ≤ (w - s.length) % 2 := by
    calc ((w - s.length) % 2) * (w % 2) ≤ ((w - s.length) % 2) * 1 := Nat.mul_le_mul_left _ (by omega)
      _ = _ := Nat.mul_one _
  generalize ((w - s.length) % 2) * (w % 2) = z at *
  omega

theorem pads_refl (w : Nat) (s : Str) (h : w ≤ s.length) : Pads w s s :=
  ⟨⟨0, 0, by simp⟩, by omega⟩

theorem pads_ljust (w : Nat) (s : Str) : Pads w s (ljust w s) := by
  refine ⟨⟨0, _, by simp [ljust]; rfl⟩, ?_⟩
  simp only [ljust, List.length_append, List.length_replicate]
  omega

theorem pads_pad8 (s : Str) : Pads 8 s (pad8 s) := by
  unfold pad8
  split
  · exact pads_center 8 s
  · exact pads_refl 8 s (by omega)

theorem le_pad8 (s : Str) : 8 ≤ (pad8 s).length := by
  rw [(pads_pad8 s).2]; omega

theorem pad8_idem (s : Str) : pad8 (pad8 s) = pad8 s := by
  have h := le_pad8 s
  generalize pad8 s = t at *
  unfold pad8
  rw [if_neg (by omega)]

theorem operPad_len (o : Str) : 3 ≤ (if o.length < 2 then center 3 o else ljust 3 o).length := by
  split
  · rw [(pads_center 3 o).2]; omega
  · rw [(pads_ljust 3 o).2]; omega

theorem ljust_of_le (w : Nat) (s : Str) (h : w ≤ s.length) : ljust w s = s := by
  unfold ljust
  rw [Nat.sub_eq_zero_of_le h]
  simp

theorem formatEnd_idem (e : EndE) : formatEnd (formatEnd e) = formatEnd e := by
  have hp := pad8_idem e.endType
  cases e with | mk sp et op st v =>
  cases op with
  | none => simp [formatEnd, pad8_idem]
  | some o =>
    have h := operPad_len o
    simp only [formatEnd, pad8_idem, Option.getD_some, Option.map_some, EndE.mk.injEq, true_and,
      and_true, Option.some.injEq]
    rw [if_neg (by omega), ljust_of_le 3 _ h]

theorem formatStep_idem (s : Step) : formatStep (formatStep s) = formatStep s := by
  cases s with | mk ty mode v lim ends reps other =>
  simp only [formatStep, pad8_idem, Option.getD_some, Step.mk.injEq, true_and, and_true]
  constructor
  · cases ends with
    | none => rfl
    | some e =>
      cases e with
      | one e => simp [formatEnds, formatEnd_idem]
      | many es => simp [formatEnds, Function.comp_def, formatEnd_idem]
  · cases reps with
    | none => rfl
    | some e =>
      cases e with
      | one e => simp [formatReps, formatRep, pad8_idem]
      | many es => simp [formatReps, formatRep, Function.comp_def, pad8_idem]

theorem formattedEnd (e : EndE) : FormattedEnd e (formatEnd e) := by
  cases e with | mk sp et op st v =>
  refine ⟨pads_pad8 _, ?_, ?_, rfl, rfl⟩
  · cases op with
    | none => rfl
    | some o =>
      refine ⟨_, rfl, ?_⟩
      dsimp only
      split
      · exact pads_center 3 o
      · exact pads_ljust 3 o
  · cases sp <;> rfl

theorem forall₂_map_right {α β : Type} {R : α → β → Prop} {f : α → β} (l : List α)
    (h : ∀ a, R a (f a)) : List.Forall₂ R l (l.map f) := by
  induction l with
  | nil => exact .nil
  | cons a l ih => exact .cons (h a) ih

theorem formattedStep (s : Step) : FormattedStep s (formatStep s) := by
  cases s with | mk ty mode v lim ends reps other =>
  refine ⟨pads_pad8 _, ?_, ?_, ?_, rfl, rfl, rfl⟩
  · cases mode with
    | some m => exact ⟨_, rfl, pads_pad8 m⟩
    | none =>
      have h : Pads 8 [] (pad8 [' ']) := ⟨⟨8, 0, by decide⟩, by decide⟩
      exact ⟨_, rfl, h⟩
  · cases ends with
    | none => trivial
    | some e =>
      cases e with
      | one e => exact formattedEnd e
      | many es => exact forall₂_map_right es formattedEnd
  · cases reps with
    | none => trivial
    | some e =>
      cases e with
      | one e => exact ⟨pads_pad8 _, rfl⟩
      | many es => exact forall₂_map_right es (fun r => ⟨pads_pad8 _, rfl⟩)

/-! ### Durations -/

theorem digit_toNat {n : Nat} (h : n < 10) : (digit n).toNat = 48 + n := by
  unfold digit
  revert n; decide

theorem digit_range {n : Nat} (h : n < 10) : '0' ≤ digit n ∧ digit n ≤ '9' := by
  unfold digit
  revert n; decide

theorem digit_ne_colon {n : Nat} (h : n < 10) : digit n ≠ ':' := by
  unfold digit
  revert n; decide

theorem decimal_two {n : Nat} (h : n < 100) : Decimal (two n) n := by
  have h1 : n / 10 < 10 := by omega
  have h2 : n % 10 < 10 := by omega
  refine ⟨by simp [two], ?_, ?_⟩
  · intro c hc
    simp only [two, List.mem_cons, List.not_mem_nil, or_false] at hc
    rcases hc with rfl | rfl
    · exact digit_range h1
    · exact digit_range h2
  · simp only [two, List.foldl_cons, List.foldl_nil, digit_toNat h1, digit_toNat h2]
    have : '0'.toNat = 48 := rfl
    omega

theorem decimal_unique {s : Str} {a b : Nat} (ha : Decimal s a) (hb : Decimal s b) : a = b := by
  rw [ha.2.2, hb.2.2]

theorem decimal_no_colon {s : Str} {n : Nat} (h : Decimal s n) : ':' ∉ s := by
  intro hm
  have := h.2.1 _ hm
  exact absurd this (by decide)

theorem split_colon {a b x y : Str} (ha : ':' ∉ a) (hb : ':' ∉ b) (h : a ++ ':' :: x = b ++ ':' :: y) :
    a = b ∧ x = y := by
  induction a generalizing b with
  | nil =>
    cases b with
    | nil => simpa using h
    | cons c b =>
      simp only [List.nil_append, List.cons_append, List.cons.injEq] at h
      exact absurd (h.1 ▸ List.mem_cons_self) hb
  | cons d a ih =>
    cases b with
    | nil =>
      simp only [List.nil_append, List.cons_append, List.cons.injEq] at h
      exact absurd (h.1 ▸ List.mem_cons_self) ha
    | cons c b =>
      simp only [List.cons_append, List.cons.injEq] at h
      have := ih (fun hm => ha (List.mem_cons_of_mem _ hm))
        (fun hm => hb (List.mem_cons_of_mem _ hm)) h.2
      exact ⟨by rw [h.1, this.1], this.2⟩

theorem denotes_unique {s : Str} {a b : Nat} (ha : Denotes s a) (hb : Denotes s b) : a = b := by
  obtain ⟨h, m, c, H, M, C, e1, d1, d2, d3, -, -, r1⟩ := ha
  obtain ⟨h', m', c', H', M', C', e2, d1', d2', d3', -, -, r2⟩ := hb
  rw [e1] at e2
  simp only [List.append_assoc, List.cons_append] at e2
  obtain ⟨rfl, e3⟩ := split_colon (decimal_no_colon d1) (decimal_no_colon d1') e2
  obtain ⟨rfl, rfl⟩ := split_colon (decimal_no_colon d2) (decimal_no_colon d2') e3
  rw [r1, r2, decimal_unique d1 d1', decimal_unique d2 d2', decimal_unique d3 d3']

/-- what `strftime` of `gmtime` writes: the number of seconds without the whole days -/
theorem denotes_hms (t : Int) : Denotes (hms t) (t % 86400).toNat := by
  have h0 : 0 ≤ t % 86400 := Int.emod_nonneg _ (by decide)
  have h1 : t % 86400 < 86400 := Int.emod_lt_of_pos _ (by decide)
  unfold hms
  generalize hd : (t % 86400).toNat = d
  have hd' : d < 86400 := by omega
  refine ⟨two (d / 3600), two (d / 60 % 60), two (d % 60), d / 3600, d / 60 % 60, d % 60, ?_,
    decimal_two (by omega), decimal_two (by omega), decimal_two (by omega), by omega, by omega,
    by omega⟩
  simp

theorem denotes_hms_of_lt {t : Int} (h0 : 0 ≤ t) (h1 : t < 86400) : Denotes (hms t) t.toNat := by
  have := denotes_hms t
  rwa [Int.emod_eq_of_lt h0 h1] at this

theorem nearest_bounds (x : Rat) :
    -(1 / 2) ≤ x - (nearest x : Rat) ∧ x - (nearest x : Rat) ≤ 1 / 2 := by
  unfold nearest Pandas.roundEven
  have hf : ((x.floor : Int) : Rat) ≤ x := Rat.floor_le x
  have hl : x < (x.floor : Rat) + 1 := by have := Rat.lt_floor (x := x); linarith
  dsimp only
  split
  · rename_i h; constructor <;> linarith
  · rename_i h
    split
    · rename_i h'; push_cast; constructor <;> linarith
    · rename_i h'
      have : x - (x.floor : Rat) = 1 / 2 := by
        apply le_antisymm <;> linarith
      split
      · constructor <;> linarith
      · push_cast; constructor <;> linarith

/-! ### Running the instructions -/

theorem sameEnd_refl (e : EndE) : SameEnd e e := ⟨rfl, rfl, rfl, rfl⟩

theorem sameEnd_trans {a b c : EndE} (h : SameEnd a b) (h' : SameEnd b c) : SameEnd a c :=
  ⟨h'.1.trans h.1, h'.2.1.trans h.2.1, h'.2.2.1.trans h.2.2.1, h'.2.2.2.trans h.2.2.2⟩

theorem forall₂_refl' {α : Type} {R : α → α → Prop} (h : ∀ a, R a a) (l : List α) :
    List.Forall₂ R l l := by
  induction l with
  | nil => exact .nil
  | cons a l ih => exact .cons (h a) ih

theorem forall₂_trans' {α : Type} {R : α → α → Prop} (h : ∀ a b c, R a b → R b c → R a c) :
    ∀ {l l' l'' : List α}, List.Forall₂ R l l' → List.Forall₂ R l' l'' → List.Forall₂ R l l''
  | _, _, _, .nil, .nil => .nil
  | _, _, _, .cons a b, .cons a' b' => .cons (h _ _ _ a a') (forall₂_trans' h b b')

theorem sameEnds_refl (o : Option Ends) : SameEnds o o := by
  cases o with
  | none => trivial
  | some e =>
    cases e with
    | one e => exact sameEnd_refl e
    | many es => exact forall₂_refl' sameEnd_refl es

theorem sameEnds_trans {a b c : Option Ends} (h : SameEnds a b) (h' : SameEnds b c) :
    SameEnds a c := by
  cases a with
  | none =>
    cases b with
    | none => exact h'
    | some b => cases b <;> exact h.elim
  | some a =>
    cases b with
    | none => cases a <;> exact h.elim
    | some b =>
      cases c with
      | none => cases b <;> exact h'.elim
      | some c =>
        cases a <;> cases b <;> cases c <;>
          first | exact h.elim | exact h'.elim | exact sameEnd_trans h h'
                | exact forall₂_trans' (R := SameEnd) (fun _ _ _ => sameEnd_trans) h h'

theorem same_refl (s : Step) : SameStructure s s :=
  ⟨rfl, rfl, rfl, rfl, sameEnds_refl _, rfl⟩

theorem same_trans {a b c : Step} (h : SameStructure a b) (h' : SameStructure b c) :
    SameStructure a c :=
  ⟨h'.1.trans h.1, h'.2.1.trans h.2.1, h'.2.2.1.trans h.2.2.1, h'.2.2.2.1.trans h.2.2.2.1,
    sameEnds_trans h.2.2.2.2.1 h'.2.2.2.2.1, h'.2.2.2.2.2.trans h.2.2.2.2.2⟩

theorem forall₂_modify {es : List EndE} (k : Nat) (v : Val) :
    List.Forall₂ SameEnd es (es.modify k (fun e => { e with value := v })) := by
  induction es generalizing k with
  | nil => cases k <;> exact .nil
  | cons e es ih =>
    cases k with
    | zero => exact .cons ⟨rfl, rfl, rfl, rfl⟩ (forall₂_refl' sameEnd_refl es)
    | succ k => exact .cons (sameEnd_refl e) (ih k)

theorem same_putEnd (s : Step) (v : Val) (k : Sel) : SameStructure s (putEnd s v k) := by
  cases k with
  | one =>
    simp only [putEnd]
    split
    · rename_i e he
      refine ⟨rfl, rfl, rfl, rfl, ?_, rfl⟩
      rw [he]
      exact ⟨rfl, rfl, rfl, rfl⟩
    · exact same_refl s
  | nth k =>
    simp only [putEnd]
    split
    · rename_i es he
      refine ⟨rfl, rfl, rfl, rfl, ?_, rfl⟩
      rw [he]
      exact forall₂_modify k v
    · exact same_refl s

/-- the step an instruction may write -/
def target : Instr → Option Nat
  | .isType _ _ => none
  | .isMode _ _ => none
  | .endIs _ _ _ => none
  | .endNe _ _ _ => none
  | .setValue i _ => some i
  | .setLimit i _ _ => some i
  | .setEnd i _ _ => some i
  | .loopCnt i _ _ => some i

theorem forall₂_set {p : List Step} {i : Nat} {s s' : Step} (h : p[i]? = some s)
    (hs : SameStructure s s') : List.Forall₂ SameStructure p (p.set i s') := by
  induction p generalizing i with
  | nil => exact .nil
  | cons a p ih =>
    cases i with
    | zero =>
      simp only [List.getElem?_cons_zero, Option.some.injEq] at h
      subst h
      exact .cons hs (forall₂_refl' same_refl p)
    | succ i =>
      simp only [List.getElem?_cons_succ] at h
      exact .cons (same_refl a) (ih h)

theorem stepAt_ok {p : List Step} {i : Nat} {s : Step} (h : stepAt p i = .ok s) : p[i]? = some s := by
  unfold stepAt at h
  split at h
  · rename_i s' hs; cases h; exact hs
  · cases h

/-- the effect of one instruction: nothing, or the replacement of the target step -/
theorem exec_effect {p p' : List Step} {c : Instr} (h : exec p c = .ok p') :
    p' = p ∨ ∃ (i : Nat) (s s' : Step), target c = some i ∧ p[i]? = some s ∧ SameStructure s s' ∧
      p' = p.set i s' := by
  cases c with
  | isType i t =>
    simp only [exec, bind, Except.bind] at h
    split at h
    · cases h
    · split at h
      · cases h; exact .inl rfl
      · cases h
  | isMode i t =>
    simp only [exec, bind, Except.bind] at h
    split at h
    · cases h
    · split at h
      · cases h; exact .inl rfl
      · cases h
  | endIs i k t =>
    simp only [exec, bind, Except.bind] at h
    split at h
    · cases h
    · split at h
      · cases h
      · split at h
        · cases h; exact .inl rfl
        · cases h
  | endNe i k t =>
    simp only [exec, bind, Except.bind] at h
    split at h
    · cases h
    · split at h
      · cases h
      · split at h
        · cases h
        · cases h; exact .inl rfl
  | setValue i v =>
    simp only [exec, bind, Except.bind] at h
    split at h
    · cases h
    · rename_i s hs
      cases h
      refine .inr ⟨i, s, _, rfl, stepAt_ok hs, ?_, rfl⟩
      exact ⟨rfl, rfl, rfl, rfl, sameEnds_refl _, rfl⟩
  | setLimit i key v =>
    simp only [exec, bind, Except.bind] at h
    split at h
    · cases h
    · rename_i s hs
      split at h
      · cases h
      · rename_i l hl
        cases h
        refine .inr ⟨i, s, _, rfl, stepAt_ok hs, ?_, rfl⟩
        exact ⟨rfl, rfl, rfl, rfl, sameEnds_refl _, by simp [hl]⟩
  | setEnd i k v =>
    simp only [exec, bind, Except.bind] at h
    split at h
    · cases h
    · rename_i s hs
      split at h
      · cases h
      · cases h
        exact .inr ⟨i, s, _, rfl, stepAt_ok hs, same_putEnd s v k, rfl⟩
  | loopCnt i v₁ v₂ =>
    simp only [exec, bind, Except.bind] at h
    split at h
    · cases h
    · rename_i s hs
      split at h
      · split at h
        · split at h
          · cases h
          · split at h
            · cases h
              exact .inr ⟨i, s, _, rfl, stepAt_ok hs, same_putEnd s v₁ .one, rfl⟩
            · cases h
        · split at h
          · split at h
            · cases h
            · split at h
              · cases h
                exact .inr ⟨i, s, _, rfl, stepAt_ok hs, same_putEnd s v₂ .one, rfl⟩
              · cases h
          · cases h; exact .inl rfl
      · cases h

theorem run_cons {c : Instr} {cs : List Instr} {p p' : List Step} (h : run (c :: cs) p = .ok p') :
    ∃ q, exec p c = .ok q ∧ run cs q = .ok p' := by
  simp only [run, bind, Except.bind] at h
  split at h
  · cases h
  · rename_i q hq
    exact ⟨q, hq, h⟩

theorem run_only {cs : List Instr} {p p' : List Step} (h : run cs p = .ok p') :
    OnlyTouches (fun j => ∃ c ∈ cs, target c = some j) p p' := by
  induction cs generalizing p with
  | nil =>
    cases h
    exact ⟨forall₂_refl' same_refl _, fun _ _ => rfl⟩
  | cons c cs ih =>
    obtain ⟨q, hq, hr⟩ := run_cons h
    obtain ⟨hs, hf⟩ := ih hr
    rcases exec_effect hq with rfl | ⟨i, s, s', ht, hi, hss, rfl⟩
    · exact ⟨hs, fun j hj => hf j (fun ⟨c', hc, ht⟩ => hj ⟨c', List.mem_cons_of_mem _ hc, ht⟩)⟩
    · refine ⟨forall₂_trans' (R := SameStructure) (fun _ _ _ => same_trans) (forall₂_set hi hss) hs, ?_⟩
      intro j hj
      rw [hf j (fun ⟨c', hc, ht⟩ => hj ⟨c', List.mem_cons_of_mem _ hc, ht⟩)]
      by_cases hij : i = j
      · exact absurd ⟨c, List.mem_cons_self, hij ▸ ht⟩ hj
      · rw [List.getElem?_set_ne hij]

/-- the value last written to end entry `k` of step `i` -/
def lastEnd (i k : Nat) : List Instr → Option Val
  | [] => none
  | .setEnd j (.nth l) v :: cs => match lastEnd i k cs with
    | some w => some w
    | none => if j = i ∧ l = k then some v else none
  | _ :: cs => lastEnd i k cs

/-- the end entry `k` of step `i` in the procedure -/
def entry (p : List Step) (i k : Nat) : Option EndE :=
  match p[i]? with
  | some s => match s.ends with
    | some (.many es) => es[k]?
    | _ => none
  | none => none

theorem entry_some {p : List Step} {i k : Nat} {e : EndE} (h : entry p i k = some e) :
    ∃ (s : Step) (es : List EndE), p[i]? = some s ∧ s.ends = some (.many es) ∧ es[k]? = some e := by
  unfold entry at h
  split at h
  · rename_i s hs
    split at h
    · rename_i es he
      exact ⟨s, es, hs, he, h⟩
    · cases h
  · cases h

theorem entry_putEnd_ne {s : Step} {v : Val} {sel : Sel} {k : Nat} (h : sel ≠ .nth k) :
    (match (putEnd s v sel).ends with
      | some (.many es) => es[k]?
      | _ => none) =
    (match s.ends with
      | some (.many es) => es[k]?
      | _ => none) := by
  cases s with | mk ty mode sv lim ends reps other =>
  cases sel with
  | one =>
    cases ends with
    | none => rfl
    | some e => cases e <;> rfl
  | nth l =>
    have hl : l ≠ k := fun hlk => h (by rw [hlk])
    cases ends with
    | none => rfl
    | some e =>
      cases e with
      | one e => rfl
      | many es =>
        simp only [putEnd]
        rw [List.getElem?_modify]
        simp [hl]

theorem endAt_nth {s : Step} {k : Nat} {e : EndE} (h : endAt s (.nth k) = .ok e) :
    ∃ es, s.ends = some (.many es) ∧ es[k]? = some e := by
  cases s with | mk ty mode sv lim ends reps other =>
  cases ends with
  | none => cases h
  | some x =>
    cases x with
    | one x => cases h
    | many es =>
      simp only [endAt] at h
      split at h
      · rename_i e' he
        cases h
        exact ⟨es, rfl, he⟩
      · cases h

theorem entry_set_other {p : List Step} {i j k : Nat} {s : Step} (h : i ≠ j) :
    entry (p.set i s) j k = entry p j k := by
  unfold entry
  rw [List.getElem?_set_ne h]

theorem entry_set_self {p : List Step} {i k : Nat} {s s' : Step} (h : p[i]? = some s) :
    entry (p.set i s') i k = (match s'.ends with
      | some (.many es) => es[k]?
      | _ => none) := by
  have hl : i < p.length := by
    rw [List.getElem?_eq_some_iff] at h; exact h.1
  unfold entry
  rw [List.getElem?_set_self hl]

theorem entry_of {p : List Step} {i k : Nat} {s : Step} (h : p[i]? = some s) :
    entry p i k = (match s.ends with
      | some (.many es) => es[k]?
      | _ => none) := by
  unfold entry; rw [h]

/-- an instruction that does not assign entry `k` of step `i` leaves it alone -/
theorem exec_entry {p p' : List Step} {c : Instr} {i k : Nat} (h : exec p c = .ok p')
    (hc : ∀ v, c ≠ .setEnd i (.nth k) v) : entry p' i k = entry p i k := by
  cases c with
  | isType j t =>
    rcases exec_effect h with rfl | ⟨_, _, _, ht, -⟩
    · rfl
    · cases ht
  | isMode j t =>
    rcases exec_effect h with rfl | ⟨_, _, _, ht, -⟩
    · rfl
    · cases ht
  | endIs j l t =>
    rcases exec_effect h with rfl | ⟨_, _, _, ht, -⟩
    · rfl
    · cases ht
  | endNe j l t =>
    rcases exec_effect h with rfl | ⟨_, _, _, ht, -⟩
    · rfl
    · cases ht
  | setValue j v =>
    simp only [exec, bind, Except.bind] at h
    split at h
    · cases h
    · rename_i s hs
      cases h
      by_cases hji : j = i
      · subst hji
        rw [entry_set_self (stepAt_ok hs), entry_of (stepAt_ok hs)]
      · exact entry_set_other hji
  | setLimit j key v =>
    simp only [exec, bind, Except.bind] at h
    split at h
    · cases h
    · rename_i s hs
      split at h
      · cases h
      · cases h
        by_cases hji : j = i
        · subst hji
          rw [entry_set_self (stepAt_ok hs), entry_of (stepAt_ok hs)]
        · exact entry_set_other hji
  | setEnd j sel v =>
    simp only [exec, bind, Except.bind] at h
    split at h
    · cases h
    · rename_i s hs
      split at h
      · cases h
      · cases h
        by_cases hji : j = i
        · subst hji
          rw [entry_set_self (stepAt_ok hs), entry_of (stepAt_ok hs)]
          exact entry_putEnd_ne (fun hsel => hc v (by rw [hsel]))
        · exact entry_set_other hji
  | loopCnt j v₁ v₂ =>
    simp only [exec, bind, Except.bind] at h
    split at h
    · cases h
    · rename_i s hs
      have key : ∀ v : Val, entry (p.set j (putEnd s v .one)) i k = entry p i k := by
        intro v
        by_cases hji : j = i
        · subst hji
          rw [entry_set_self (stepAt_ok hs), entry_of (stepAt_ok hs)]
          exact entry_putEnd_ne (by simp)
        · exact entry_set_other hji
      split at h
      · split at h
        · split at h
          · cases h
          · split at h
            · cases h; exact key v₁
            · cases h
        · split at h
          · split at h
            · cases h
            · split at h
              · cases h; exact key v₂
              · cases h
          · cases h; rfl
      · cases h

theorem exec_setEnd {p p' : List Step} {i k : Nat} {v : Val}
    (h : exec p (.setEnd i (.nth k) v) = .ok p') : ∃ e, entry p' i k = some e ∧ e.value = v := by
  simp only [exec, bind, Except.bind] at h
  split at h
  · cases h
  · rename_i s hs
    split at h
    · cases h
    · rename_i e he
      cases h
      rw [entry_set_self (stepAt_ok hs)]
      obtain ⟨es, hes, he'⟩ := endAt_nth he
      refine ⟨{ e with value := v }, ?_, rfl⟩
      simp only [putEnd, hes]
      rw [List.getElem?_modify]
      simp [he']

theorem run_keep {cs : List Instr} {p p' : List Step} {i k : Nat} (h : run cs p = .ok p')
    (hl : lastEnd i k cs = none) : entry p' i k = entry p i k := by
  induction cs generalizing p with
  | nil => cases h; rfl
  | cons c cs ih =>
    obtain ⟨q, hq, hr⟩ := run_cons h
    have hl' : lastEnd i k cs = none ∧ ∀ v, c ≠ .setEnd i (.nth k) v := by
      unfold lastEnd at hl
      split at hl
      · rename_i h1; cases h1
      · rename_i h1
        cases h1
        split at hl
        · cases hl
        · rename_i hn
          refine ⟨hn, ?_⟩
          intro v hv
          cases hv
          simp at hl
      · rename_i hne h1
        cases h1
        exact ⟨hl, fun v hv => hne _ _ _ hv⟩
    rw [ih hr hl'.1, exec_entry hq hl'.2]

/-- the last assignment of an end value is the one found afterwards -/
theorem run_last {cs : List Instr} {p p' : List Step} {i k : Nat} {v : Val}
    (h : run cs p = .ok p') (hl : lastEnd i k cs = some v) :
    ∃ e, entry p' i k = some e ∧ e.value = v := by
  induction cs generalizing p with
  | nil => cases hl
  | cons c cs ih =>
    obtain ⟨q, hq, hr⟩ := run_cons h
    unfold lastEnd at hl
    split at hl
    · rename_i h1; cases h1
    · rename_i j l w cs' h1
      cases h1
      split at hl
      · rename_i w' hw
        cases hl
        exact ih hr hw
      · rename_i hn
        split at hl
        · rename_i hjl
          cases hl
          obtain ⟨rfl, rfl⟩ := hjl
          obtain ⟨e, he, hv⟩ := exec_setEnd hq
          exact ⟨e, (run_keep hr hn).trans he, hv⟩
        · cases hl
    · rename_i h1
      cases h1
      exact ih hr hl

theorem forall₂_getElem? {α : Type} {R : α → α → Prop} {l l' : List α} (h : List.Forall₂ R l l')
    {k : Nat} {b : α} (hb : l'[k]? = some b) : ∃ a, l[k]? = some a ∧ R a b := by
  induction h generalizing k with
  | nil => simp at hb
  | cons hab _ ih =>
    cases k with
    | zero =>
      simp only [List.getElem?_cons_zero, Option.some.injEq] at hb
      subst hb
      exact ⟨_, rfl, hab⟩
    | succ k => exact ih hb

theorem entry_same {p p' : List Step} (h : List.Forall₂ SameStructure p p') {i k : Nat} {e' : EndE}
    (he : entry p' i k = some e') : ∃ e, entry p i k = some e ∧ SameEnd e e' := by
  obtain ⟨s', es', hs', hes', hk'⟩ := entry_some he
  obtain ⟨s, hs, hss⟩ := forall₂_getElem? h hs'
  have h5 := hss.2.2.2.2.1
  rw [hes'] at h5
  cases hends : s.ends with
  | none => rw [hends] at h5; exact h5.elim
  | some x =>
    cases x with
    | one e => rw [hends] at h5; exact h5.elim
    | many es =>
      rw [hends] at h5
      obtain ⟨e, hek, hse⟩ := forall₂_getElem? h5 hk'
      exact ⟨e, by rw [entry_of hs, hends]; exact hek, hse⟩

/-- an asserted end type is the type of the entry of the result -/
theorem run_endIs {cs : List Instr} {p p' : List Step} {i k : Nat} {t : Str} (h : run cs p = .ok p')
    (hc : Instr.endIs i (.nth k) t ∈ cs) {e : EndE} (he : entry p' i k = some e) : e.endType = t := by
  induction cs generalizing p with
  | nil => cases hc
  | cons c cs ih =>
    obtain ⟨q, hq, hr⟩ := run_cons h
    rcases List.mem_cons.mp hc with rfl | hc'
    · have hs := (run_only hr).1
      obtain ⟨e₀, he₀, hsame⟩ := entry_same hs he
      rw [hsame.2.1]
      simp only [exec, bind, Except.bind] at hq
      split at hq
      · cases hq
      · rename_i s hst
        split at hq
        · cases hq
        · rename_i e₁ he₁
          split at hq
          · rename_i ht
            cases hq
            rw [entry_of (stepAt_ok hst)] at he₀
            obtain ⟨es, hes, he₂⟩ := endAt_nth he₁
            rw [hes] at he₀
            simp only [he₂] at he₀
            cases he₀
            exact ht
          · cases hq
    · exact ih hr hc'

/-- a written step time is found in the result -/
theorem run_time {cs : List Instr} {p p' : List Step} {i k n : Nat} {txt : Str}
    (h : run cs p = .ok p') (hc : Instr.endIs i (.nth k) "StepTime".toList ∈ cs)
    (hl : lastEnd i k cs = some (.text txt)) (hd : Denotes txt n) : EndTime p' i k n := by
  obtain ⟨e, he, hv⟩ := run_last h hl
  have ht := run_endIs h hc he
  obtain ⟨s, es, hs, hes, hk⟩ := entry_some he
  exact ⟨s, es, e, txt, hs, hes, hk, ht, hv, hd⟩

/-- the number of seconds a step time in the result denotes -/
theorem run_time_unique {cs : List Instr} {p p' : List Step} {i k n : Nat} {txt : Str}
    (h : run cs p = .ok p') (hl : lastEnd i k cs = some (.text txt)) (ht : EndTime p' i k n) :
    Denotes txt n := by
  obtain ⟨e, he, hv⟩ := run_last h hl
  obtain ⟨s, es, e', txt', hs, hes, hk, -, hv', hd⟩ := ht
  rw [entry_of hs, hes] at he
  simp only [hk] at he
  cases he
  rw [hv] at hv'
  cases hv'
  exact hd

theorem lasts {cs : List Instr} {p p' : List Step} {i : Nat} {x : Rat} (h : run cs p = .ok p')
    (hc : Instr.endIs i (.nth 0) "StepTime".toList ∈ cs)
    (hl : lastEnd i 0 cs = some (.text (hms (nearest x)))) (h0 : 0 ≤ x) (h1 : x < 86399 + 1 / 2) :
    Lasts p' i x := by
  have hn := nearest_bounds x
  have hn0 : 0 ≤ nearest x := by
    have : (-1 : Rat) < (nearest x : Rat) := by linarith
    have : (-1 : Int) < nearest x := by exact_mod_cast this
    omega
  have hn1 : nearest x < 86400 := by
    have : (nearest x : Rat) < 86400 := by linarith
    exact_mod_cast this
  refine ⟨(nearest x).toNat, run_time h hc hl (denotes_hms_of_lt hn0 hn1), ?_⟩
  have : (((nearest x).toNat : Nat) : Rat) = (nearest x : Rat) := by
    exact_mod_cast Int.toNat_of_nonneg hn0
  rw [this]
  exact hn

theorem lastsDown {cs : List Instr} {p p' : List Step} {i : Nat} {x : Rat} (h : run cs p = .ok p')
    (hc : Instr.endIs i (.nth 0) "StepTime".toList ∈ cs)
    (hl : lastEnd i 0 cs = some (.text (hmsOf x))) (h0 : 0 ≤ x) (h1 : x < 86400) :
    LastsDown p' i x := by
  have hf : ((x.floor : Int) : Rat) ≤ x := Rat.floor_le x
  have hl' : x < (x.floor : Rat) + 1 := by have := Rat.lt_floor (x := x); linarith
  have hn0 : 0 ≤ x.floor := by
    have : (-1 : Rat) < (x.floor : Rat) := by linarith
    have : (-1 : Int) < x.floor := by exact_mod_cast this
    omega
  have hn1 : x.floor < 86400 := by
    have : (x.floor : Rat) < 86400 := by linarith
    exact_mod_cast this
  refine ⟨x.floor.toNat, run_time h hc hl (denotes_hms_of_lt hn0 hn1), ?_⟩
  have : ((x.floor.toNat : Nat) : Rat) = (x.floor : Rat) := by
    exact_mod_cast Int.toNat_of_nonneg hn0
  rw [this]
  exact ⟨hf, hl'⟩

theorem hms_lt_day {t : Int} {n : Nat} (h : Denotes (hms t) n) : n < 86400 := by
  have := denotes_unique h (denotes_hms t)
  have h1 : t % 86400 < 86400 := Int.emod_lt_of_pos _ (by decide)
  omega

theorem not_lasts {cs : List Instr} {p p' : List Step} {i : Nat} {x : Rat} {t : Int}
    (h : run cs p = .ok p') (hl : lastEnd i 0 cs = some (.text (hms t))) (h1 : 86400 ≤ x) :
    ¬ Lasts p' i x := by
  rintro ⟨n, hn, -, hb⟩
  have := hms_lt_day (run_time_unique h hl hn)
  have h2 : (n : Rat) ≤ 86399 := by exact_mod_cast (by omega : n ≤ 86399)
  linarith

end Beep.Proof.MaccorProcedure
