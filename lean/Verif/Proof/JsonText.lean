import Verif.Spec.JsonText

namespace Beep.Proof.JsonText

open Beep.JsonText Beep.Spec.JsonText

/-! ## More text after what is read changes nothing -/

theorem ws_append {s : Text} {c : Char} {r : Text} (h : ws s = c :: r) (t : Text) :
    ws (s ++ t) = c :: (r ++ t) := by
  induction s with
  | nil => simp [ws] at h
  | cons a s ih =>
    unfold ws at h ih ⊢
    rw [List.cons_append]
    by_cases ha : isWs a = true
    · rw [List.dropWhile_cons_of_pos ha] at h ⊢
      exact ih h
    · rw [List.dropWhile_cons_of_neg ha] at h ⊢
      injection h with h1 h2
      rw [h1, h2]

/-- What `units` reads and leaves is the same with more text behind it, and what it leaves is
shorter. -/
theorem units_append (n : Nat) : ∀ s : Text, s.length ≤ n → ∀ {l r}, units s = some (l, r) →
    r.length < s.length ∧ ∀ t, units (s ++ t) = some (l, r ++ t) := by
  induction n with
  | zero =>
    intro s hs l r h
    have : s = [] := List.length_eq_zero_iff.mp (by omega)
    subst this
    rw [units] at h
    simp at h
  | succ n ih =>
    intro s hs l r h
    match s with
    | [] => rw [units] at h; simp at h
    | c :: s =>
      simp only [List.length_cons] at hs ⊢
      rw [units.eq_def] at h
      simp only [List.cons_append]
      conv => arg 2; ext t; rw [units.eq_def]
      dsimp only at h ⊢
      split_ifs at h ⊢ with h1 h2 h3
      · simp only [Option.some.injEq, Prod.mk.injEq] at h ⊢
        obtain ⟨rfl, rfl⟩ := h
        simp
      · match s with
        | [] => simp at h
        | e :: s =>
          simp only [List.length_cons, List.cons_append] at hs h ⊢
          split_ifs at h ⊢ with h4
          · match s with
            | [] | [_] | [_, _] | [_, _, _] => simp at h
            | a :: b :: c :: d :: s =>
              simp only [List.length_cons, List.cons_append] at hs h ⊢
              cases hx : hex4 a b c d with
              | none => rw [hx] at h; simp at h
              | some m =>
                rw [hx] at h
                simp only [Option.map_eq_some_iff, Prod.exists, Prod.mk.injEq] at h
                obtain ⟨l', r', hu, rfl, rfl⟩ := h
                have := ih s (by omega) hu
                refine ⟨by omega, fun t => ?_⟩
                rw [this.2 t]
                rfl
          · cases hx : unescape e with
            | none => rw [hx] at h; simp at h
            | some m =>
              rw [hx] at h
              simp only [Option.map_eq_some_iff, Prod.exists, Prod.mk.injEq] at h
              obtain ⟨l', r', hu, rfl, rfl⟩ := h
              have := ih s (by omega) hu
              refine ⟨by omega, fun t => ?_⟩
              rw [this.2 t]
              rfl
      · simp only [Option.map_eq_some_iff, Prod.exists, Prod.mk.injEq] at h
        obtain ⟨l', r', hu, rfl, rfl⟩ := h
        have := ih s (by omega) hu
        refine ⟨by omega, fun t => ?_⟩
        rw [this.2 t]
        rfl

theorem scanString_append {s : Text} {l r} (h : scanString s = some (l, r)) :
    r.length < s.length ∧ ∀ t, scanString (s ++ t) = some (l, r ++ t) := by
  simp only [scanString, Option.map_eq_some_iff, Prod.exists, Prod.mk.injEq] at h
  obtain ⟨l', r', hu, rfl, rfl⟩ := h
  have := units_append _ s le_rfl hu
  refine ⟨this.1, fun t => ?_⟩
  rw [scanString, this.2 t]
  rfl

theorem strip_append (w : Text) : ∀ {s r : Text}, strip w s = some r →
    r.length ≤ s.length ∧ ∀ t, strip w (s ++ t) = some (r ++ t) := by
  induction w with
  | nil => intro s r h; simp only [strip, Option.some.injEq] at h; subst h; simp [strip]
  | cons a w ih =>
    intro s r h
    match s with
    | [] => simp [strip] at h
    | b :: s =>
      simp only [strip] at h
      split_ifs at h with hab
      have := ih h
      refine ⟨by simp only [List.length_cons]; omega, fun t => ?_⟩
      simp [strip, hab, this.2 t]

/-! ### Numbers -/

/-- The text goes on with a character that no number can go on with. -/
def Stops : Text → Prop
  | [] => False
  | c :: _ => isDig c = false ∧ c ≠ '.' ∧ c ≠ 'e' ∧ c ≠ 'E'

/-- The same, or the text ends. -/
def Free (s : Text) : Prop := s = [] ∨ Stops s

theorem span_append {s : Text} (h : s.dropWhile isDig ≠ []) (t : Text) :
    (s ++ t).takeWhile isDig = s.takeWhile isDig ∧
    (s ++ t).dropWhile isDig = s.dropWhile isDig ++ t := by
  induction s with
  | nil => simp at h
  | cons a s ih =>
    by_cases ha : isDig a = true
    · rw [List.dropWhile_cons_of_pos ha] at h
      have := ih h
      simp [ha, this.1, this.2]
    · simp [ha]

theorem dropWhile_length (s : Text) (p : Char → Bool) : (s.dropWhile p).length ≤ s.length :=
  (List.dropWhile_suffix p).length_le

theorem expSign_eq (s : Text) : s = (expSign s).1 ++ (expSign s).2 := by
  match s with
  | [] => rfl
  | c :: r => simp only [expSign]; split_ifs <;> simp

theorem expSign_append {s : Text} (h : s ≠ []) (t : Text) :
    expSign (s ++ t) = ((expSign s).1, (expSign s).2 ++ t) := by
  match s with
  | [] => exact absurd rfl h
  | c :: r => simp only [List.cons_append, expSign]; split_ifs <;> simp

theorem expPart_append {s : Text} (h : Stops (expPart s).2) :
    (expPart s).2.length ≤ s.length ∧
    ∀ t, expPart (s ++ t) = ((expPart s).1, (expPart s).2 ++ t) := by
  match s with
  | [] => simp [expPart, Stops] at h
  | c :: r =>
    simp only [expPart] at h ⊢
    split_ifs at h ⊢ with hc
    · have hd : (expSign r).2.dropWhile isDig ≠ [] := by
        intro h0; rw [h0] at h; exact h
      have hr : r ≠ [] := by rintro rfl; simp [expSign] at hd
      have hl := congrArg List.length (expSign_eq r)
      have := dropWhile_length (expSign r).2 isDig
      simp only [List.length_append, List.length_cons] at hl ⊢
      refine ⟨by omega, fun t => ?_⟩
      simp only [List.cons_append, expSign_append hr, span_append hd t]
      rw [if_pos hc]
    · refine ⟨le_rfl, fun t => ?_⟩
      have : ¬ (c = 'e' ∨ c = 'E') := fun h' => by
        rcases h' with rfl | rfl
        · exact h.2.2.1 rfl
        · exact h.2.2.2 rfl
      simp only [List.cons_append]
      rw [if_neg (fun h' => this h'.1)]

theorem expPart_free {s : Text} (h : Stops s) : expPart s = ([], s) := by
  match s with
  | [] => exact h.elim
  | c :: r =>
    have : ¬ (c = 'e' ∨ c = 'E') := fun h' => by
      rcases h' with rfl | rfl
      · exact h.2.2.1 rfl
      · exact h.2.2.2 rfl
    simp only [expPart]
    rw [if_neg (fun h' => this h'.1)]

theorem expPart_ne {s : Text} (h : (expPart s).2 ≠ []) : s ≠ [] := by
  rintro rfl; simp [expPart] at h

theorem stops_ne {s : Text} (h : Stops s) : s ≠ [] := by
  rintro rfl; exact h

theorem fracPart_append {s : Text} (h : Stops (expPart (fracPart s).2).2) :
    (fracPart s).2.length ≤ s.length ∧
    ∀ t, fracPart (s ++ t) = ((fracPart s).1, (fracPart s).2 ++ t) := by
  have hne : (fracPart s).2 ≠ [] := expPart_ne (stops_ne h)
  match s with
  | [] => simp [fracPart] at hne
  | c :: r =>
    simp only [fracPart] at h hne ⊢
    split_ifs at h hne ⊢ with hc
    · have := dropWhile_length r isDig
      simp only [List.length_cons]
      refine ⟨by omega, fun t => ?_⟩
      simp only [List.cons_append, span_append hne t]
      rw [if_pos hc]
    · refine ⟨le_rfl, fun t => ?_⟩
      have : c ≠ '.' := by
        rintro rfl
        simp only [expPart] at h
        rw [if_neg (by simp)] at h
        exact h.2.1 rfl
      simp only [List.cons_append]
      rw [if_neg (fun h' => this h'.1)]

theorem unsigned_append {s : Text} {l r} (h : unsigned s = some (l, r)) (hr : Stops r) :
    r.length < s.length ∧ ∀ t, unsigned (s ++ t) = some (l, r ++ t) := by
  simp only [unsigned] at h
  cases hi : intPart s with
  | none => rw [hi] at h; simp at h
  | some x =>
    obtain ⟨i, s2⟩ := x
    rw [hi] at h
    simp only [Option.some.injEq, Prod.mk.injEq] at h
    obtain ⟨rfl, rfl⟩ := h
    have hf := fracPart_append hr
    have he := expPart_append hr
    have hs2 : s2 ≠ [] := by
      have := expPart_ne (stops_ne hr)
      rintro rfl; simp [fracPart] at this
    have hint : s2.length < s.length ∧ ∀ t, intPart (s ++ t) = some (i, s2 ++ t) := by
      match s with
      | [] => simp [intPart] at hi
      | c :: s =>
        simp only [intPart] at hi
        split_ifs at hi with h1 h2
        · simp only [Option.some.injEq, Prod.mk.injEq] at hi
          obtain ⟨rfl, rfl⟩ := hi
          exact ⟨by simp, fun t => by simp [intPart, h1]⟩
        · simp only [Option.some.injEq, Prod.mk.injEq] at hi
          obtain ⟨rfl, rfl⟩ := hi
          have := dropWhile_length s isDig
          refine ⟨by simp only [List.length_cons]; omega, fun t => ?_⟩
          simp [intPart, h1, h2, span_append hs2 t]
    refine ⟨by omega, fun t => ?_⟩
    simp only [unsigned, hint.2 t, hf.2 t, he.2 t]

theorem number_append {s : Text} {l r} (h : number s = some (l, r)) (hr : Stops r) :
    r.length < s.length ∧ ∀ t, number (s ++ t) = some (l, r ++ t) := by
  match s with
  | [] => simp [number] at h
  | c :: s =>
    simp only [number] at h
    split_ifs at h with hc
    · simp only [Option.map_eq_some_iff, Prod.exists, Prod.mk.injEq] at h
      obtain ⟨l', r', hu, rfl, rfl⟩ := h
      have := unsigned_append hu hr
      refine ⟨by simp only [List.length_cons]; omega, fun t => ?_⟩
      simp [number, hc, this.2 t]
    · have := unsigned_append h hr
      refine ⟨this.1, fun t => ?_⟩
      have := this.2 t
      simp only [List.cons_append] at this ⊢
      simp only [number]
      rw [if_neg hc, this]

/-! ### Values -/

/-- Not a number. -/
def NotNum : J → Prop
  | .num _ => False
  | _ => True

theorem ws_length (s : Text) : (ws s).length ≤ s.length := dropWhile_length s isWs

theorem stops_of_ws {r r' : Text} {c : Char} (h : ws r = c :: r')
    (hc : c = ',' ∨ c = ']' ∨ c = '}') : Stops r := by
  match r with
  | [] => simp [ws] at h
  | a :: r =>
    unfold ws at h
    by_cases ha : isWs a = true
    · simp only [isWs, Bool.or_eq_true, beq_iff_eq] at ha
      rcases ha with ((rfl | rfl) | rfl) | rfl <;> simp [Stops, isDig]
    · rw [List.dropWhile_cons_of_neg ha] at h
      injection h with h1 h2
      subst h1
      rcases hc with rfl | rfl | rfl <;> simp [Stops, isDig]

/-- `p'` reads what `p` reads, also with more text behind it (for texts up to length `m`). -/
def Extends (p p' : Text → Option (J × Text)) (m : Nat) : Prop :=
  ∀ s v r, p s = some (v, r) → (NotNum v ∨ Stops r) →
    r.length < s.length ∧ (s.length ≤ m → ∀ t, p' (s ++ t) = some (v, r ++ t))

theorem elems_append {p p' : Text → Option (J × Text)} {m : Nat} (hp : Extends p p' m) (n : Nat) :
    ∀ (k : Nat) (s : Text) {l r}, elems p n s = some (l, r) →
      r.length < s.length ∧ (s.length ≤ m → s.length ≤ k → ∀ t,
        elems p' k (s ++ t) = some (l, r ++ t)) := by
  induction n with
  | zero => intro k s l r h; simp [elems] at h
  | succ n ih =>
    intro k s l r h
    rw [elems] at h
    cases hv : p s with
    | none => rw [hv] at h; simp at h
    | some x =>
      obtain ⟨v, r1⟩ := x
      rw [hv] at h
      cases hw : ws r1 with
      | nil => simp [hw] at h
      | cons c r2 =>
        simp only [hw] at h
        have hl := ws_length r1
        rw [hw, List.length_cons] at hl
        split_ifs at h with h1 h2
        · simp only [Option.some.injEq, Prod.mk.injEq] at h
          obtain ⟨rfl, rfl⟩ := h
          have := hp s v r1 hv (.inr (stops_of_ws hw (by simp [h1])))
          refine ⟨by omega, fun hm hk t => ?_⟩
          match k with
          | 0 => omega
          | k + 1 => simp [elems, this.2 hm t, ws_append hw t, h1]
        · simp only [Option.map_eq_some_iff, Prod.exists, Prod.mk.injEq] at h
          obtain ⟨l', r', hu, rfl, rfl⟩ := h
          have := hp s v r1 hv (.inr (stops_of_ws hw (by simp [h2])))
          have hl2 := ws_length r2
          have hi := fun k => ih k _ hu
          refine ⟨by have := (hi 0).1; omega, fun hm hk t => ?_⟩
          match k with
          | 0 => omega
          | k + 1 =>
            have hne : ∃ c' r3, ws r2 = c' :: r3 := by
              cases hw2 : ws r2 with
              | nil => have := (hi 0).1; rw [hw2] at this; simp at this
              | cons a b => exact ⟨a, b, rfl⟩
            obtain ⟨c', r3, hw2⟩ := hne
            have h3 := (hi k).2 (by omega) (by omega) t
            rw [hw2] at h3
            simp [elems, this.2 hm t, ws_append hw t, h2, ws_append hw2 t]
            simpa using h3

theorem members_append {p p' : Text → Option (J × Text)} {m : Nat} (hp : Extends p p' m) (n : Nat) :
    ∀ (k : Nat) (s : Text) {l r}, members p n s = some (l, r) →
      r.length < s.length ∧ (s.length ≤ m → s.length ≤ k → ∀ t,
        members p' k (s ++ t) = some (l, r ++ t)) := by
  induction n with
  | zero => intro k s l r h; simp [members] at h
  | succ n ih =>
    intro k s l r h
    match s with
    | [] => simp [members] at h
    | q :: s =>
      rw [members] at h
      split_ifs at h with hq
      cases hs : scanString s with
      | none => rw [hs] at h; simp at h
      | some x =>
        obtain ⟨key, r1⟩ := x
        simp only [hs] at h
        have hsa := scanString_append hs
        cases hw1 : ws r1 with
        | nil => simp [hw1] at h
        | cons c r2 =>
          simp only [hw1] at h
          have hl1 := ws_length r1
          rw [hw1, List.length_cons] at hl1
          split_ifs at h with hc
          cases hv : p (ws r2) with
          | none => rw [hv] at h; simp at h
          | some x =>
            obtain ⟨v, r3⟩ := x
            simp only [hv] at h
            have hl2 := ws_length r2
            cases hw : ws r3 with
            | nil => simp [hw] at h
            | cons d r4 =>
              simp only [hw] at h
              have hl := ws_length r3
              rw [hw, List.length_cons] at hl
              split_ifs at h with h1 h2
              · simp only [Option.some.injEq, Prod.mk.injEq] at h
                obtain ⟨rfl, rfl⟩ := h
                have hpv := hp _ v r3 hv (.inr (stops_of_ws hw (by simp [h1])))
                simp only [List.length_cons]
                refine ⟨by omega, fun hm hk t => ?_⟩
                obtain ⟨c', r5, hw2⟩ : ∃ c' r5, ws r2 = c' :: r5 := by
                  cases hw2 : ws r2 with
                  | nil => have := hpv.1; rw [hw2] at this; simp at this
                  | cons a b => exact ⟨a, b, rfl⟩
                have hpt := hpv.2 (by omega) t
                rw [hw2, List.cons_append] at hpt
                match k with
                | 0 => omega
                | k + 1 =>
                  simp [members, hq, hsa.2 t, ws_append hw1 t, hc, ws_append hw2 t, hpt,
                    ws_append hw t, h1]
              · simp only [Option.map_eq_some_iff, Prod.exists, Prod.mk.injEq] at h
                obtain ⟨l', r', hu, rfl, rfl⟩ := h
                have hpv := hp _ v r3 hv (.inr (stops_of_ws hw (by simp [h2])))
                have hl4 := ws_length r4
                have hi := fun k => ih k _ hu
                have hi0 := (hi 0).1
                simp only [List.length_cons]
                refine ⟨by omega, fun hm hk t => ?_⟩
                obtain ⟨c', r5, hw2⟩ : ∃ c' r5, ws r2 = c' :: r5 := by
                  cases hw2 : ws r2 with
                  | nil => have := hpv.1; rw [hw2] at this; simp at this
                  | cons a b => exact ⟨a, b, rfl⟩
                have hpt := hpv.2 (by omega) t
                rw [hw2, List.cons_append] at hpt
                match k with
                | 0 => omega
                | k + 1 =>
                  obtain ⟨c6, r6, hw6⟩ : ∃ c' r5, ws r4 = c' :: r5 := by
                    cases hw6 : ws r4 with
                    | nil => rw [hw6] at hi0; simp at hi0
                    | cons a b => exact ⟨a, b, rfl⟩
                  have h3 := (hi k).2 (by omega) (by omega) t
                  rw [hw6, List.cons_append] at h3
                  simp [members, hq, hsa.2 t, ws_append hw1 t, hc, ws_append hw2 t, hpt,
                    ws_append hw t, h2, ws_append hw6 t, h3]

theorem array_append {p p' : Text → Option (J × Text)} {m : Nat} (hp : Extends p p' m) (n : Nat)
    (s : Text) {v r} (h : array p n s = some (v, r)) :
      r.length < s.length ∧ (s.length ≤ m → ∀ t, array p' m (s ++ t) = some (v, r ++ t)) := by
  rw [array] at h
  cases hw : ws s with
  | nil => simp [hw] at h
  | cons c s' =>
    simp only [hw] at h
    have hl := ws_length s
    rw [hw, List.length_cons] at hl
    split_ifs at h with h1
    · simp only [Option.some.injEq, Prod.mk.injEq] at h
      obtain ⟨rfl, rfl⟩ := h
      exact ⟨by omega, fun _ t => by simp [array, ws_append hw t, h1]⟩
    · simp only [Option.map_eq_some_iff, Prod.exists, Prod.mk.injEq] at h
      obtain ⟨l', r', hu, rfl, rfl⟩ := h
      have := elems_append hp n m _ hu
      simp only [List.length_cons] at this
      refine ⟨by omega, fun hm t => ?_⟩
      have h3 := this.2 (by omega) (by omega) t
      rw [List.cons_append] at h3
      simp [array, ws_append hw t, h1, h3]

theorem object_append {p p' : Text → Option (J × Text)} {m : Nat} (hp : Extends p p' m) (n : Nat)
    (s : Text) {v r} (h : object p n s = some (v, r)) :
      r.length < s.length ∧ (s.length ≤ m → ∀ t, object p' m (s ++ t) = some (v, r ++ t)) := by
  rw [object] at h
  cases hw : ws s with
  | nil => simp [hw] at h
  | cons c s' =>
    simp only [hw] at h
    have hl := ws_length s
    rw [hw, List.length_cons] at hl
    split_ifs at h with h1
    · simp only [Option.some.injEq, Prod.mk.injEq] at h
      obtain ⟨rfl, rfl⟩ := h
      exact ⟨by omega, fun _ t => by simp [object, ws_append hw t, h1]⟩
    · simp only [Option.map_eq_some_iff, Prod.exists, Prod.mk.injEq] at h
      obtain ⟨l', r', hu, rfl, rfl⟩ := h
      have := members_append hp n m _ hu
      simp only [List.length_cons] at this
      refine ⟨by omega, fun hm t => ?_⟩
      have h3 := this.2 (by omega) (by omega) t
      rw [List.cons_append] at h3
      simp [object, ws_append hw t, h1, h3]

/-- What is read of a text is read of every longer text, by every larger bound, if it is not a
number at the very end. -/
theorem value_append (n : Nat) : ∀ m, Extends (value n) (value m) m := by
  induction n with
  | zero => intro m s v r h; simp [value] at h
  | succ n ih =>
    intro m s v r h hv
    match s with
    | [] => simp [value] at h
    | c :: s =>
      have key : ∀ k, r.length < (c :: s).length ∧ ((c :: s).length ≤ k + 1 → ∀ t,
          value (k + 1) (c :: s ++ t) = some (v, r ++ t)) := by
        intro k
        rw [value] at h
        simp only [List.length_cons, List.cons_append]
        conv => arg 2; ext _ t; rw [value]
        split_ifs at h ⊢ with h1 h2 h3 h4 h5 h6 h7 h8 hc
        · simp only [Option.map_eq_some_iff, Prod.exists, Prod.mk.injEq] at h
          obtain ⟨l', r', hu, rfl, rfl⟩ := h
          have := scanString_append hu
          exact ⟨by omega, fun _ t => by rw [this.2 t]; rfl⟩
        · have := object_append (ih k) n s h
          exact ⟨by omega, fun hm t => this.2 (by omega) t⟩
        · have := array_append (ih k) n s h
          exact ⟨by omega, fun hm t => this.2 (by omega) t⟩
        iterate 5
          · simp only [Option.map_eq_some_iff, Prod.mk.injEq] at h
            obtain ⟨r', hu, rfl, rfl⟩ := h
            have := strip_append _ hu
            exact ⟨by omega, fun _ t => by rw [this.2 t]; rfl⟩
        · cases hn : number (c :: s) with
          | some x =>
            obtain ⟨l, r'⟩ := x
            simp only [hn, Option.some.injEq, Prod.mk.injEq] at h
            obtain ⟨rfl, rfl⟩ := h
            have := number_append hn (hv.resolve_left id)
            simp only [List.length_cons, List.cons_append] at this
            exact ⟨this.1, fun _ t => by rw [this.2 t]⟩
          | none =>
            simp only [hn] at h
            simp only [Option.map_eq_some_iff, Prod.mk.injEq] at h
            obtain ⟨r', hu, rfl, rfl⟩ := h
            have hs := strip_append _ hu
            refine ⟨by omega, fun _ t => ?_⟩
            have hnone : number (c :: (s ++ t)) = none := by
              match s with
              | [] => simp [strip] at hu
              | b :: s =>
                simp only [strip] at hu
                split_ifs at hu with hb
                subst hb hc
                simp [number, unsigned, intPart, isDig]
            rw [hnone]
            simp only
            rw [hs.2 t]
            rfl
        · cases hn : number (c :: s) with
          | some x =>
            obtain ⟨l, r'⟩ := x
            simp only [hn, Option.some.injEq, Prod.mk.injEq] at h
            obtain ⟨rfl, rfl⟩ := h
            have := number_append hn (hv.resolve_left id)
            simp only [List.length_cons, List.cons_append] at this
            exact ⟨this.1, fun _ t => by rw [this.2 t]⟩
          | none => simp [hn] at h
      match m with
      | k + 1 => exact key k
      | 0 => exact ⟨(key 0).1, fun h' => by simp at h'⟩

theorem value_bound {n : Nat} {s : Text} {v : J} {r : Text} (h : value n s = some (v, r))
    {m : Nat} (hm : s.length ≤ m) : value m s = some (v, r) := by
  by_cases hv : NotNum v
  · have := (value_append n m s v r h (.inl hv)).2 hm []
    simpa using this
  · match n, s, m with
    | 0, _, _ => simp [value] at h
    | n + 1, [], _ => simp [value] at h
    | n + 1, c :: s, 0 => simp at hm
    | n + 1, c :: s, m + 1 =>
      rw [value] at h ⊢
      have hobj : ∀ x, object (value n) n s = some x → NotNum x.1 := by
        intro x hx
        rw [object] at hx
        split at hx
        · simp at hx
        · split_ifs at hx
          · simp only [Option.some.injEq] at hx; subst hx; trivial
          · simp only [Option.map_eq_some_iff] at hx; obtain ⟨_, _, rfl⟩ := hx; trivial
      have harr : ∀ x, array (value n) n s = some x → NotNum x.1 := by
        intro x hx
        rw [array] at hx
        split at hx
        · simp at hx
        · split_ifs at hx
          · simp only [Option.some.injEq] at hx; subst hx; trivial
          · simp only [Option.map_eq_some_iff] at hx; obtain ⟨_, _, rfl⟩ := hx; trivial
      split_ifs at h ⊢
      · exact h
      · exact absurd (hobj _ h) hv
      · exact absurd (harr _ h) hv
      all_goals exact h

end Beep.Proof.JsonText
