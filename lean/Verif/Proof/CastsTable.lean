import Verif.Proof.Casts
/-
Lemmas for the tables of names and types.
-/
namespace Beep.Casts
open Beep Beep.Spec.Casts

/-- the kind of a type -/
def kindOf : DType → Kind
  | .int b => .signed b
  | .uint b => .unsigned b
  | .float16 => b16
  | .float32 => b32
  | .float64 => .asRead
  | .str => .text
  | .category => .label

/-- integer types have at least a bit -/
def DType.sized : DType → Prop
  | .int b => 1 ≤ b
  | _ => True

theorem trunc_whole (x : Rat) : IsWhole x (trunc x) := by
  unfold trunc IsWhole
  split
  · next h =>
    have h1 := Rat.floor_le x
    have h2 : x < (x.floor : Rat) + 1 := by have := Rat.lt_floor_add_one x; push_cast at this; exact this
    have h0 : (0 : Rat) ≤ x.floor := by
      have : (0 : Int) ≤ x.floor := Rat.le_floor_iff.mpr (by simpa using h)
      exact_mod_cast this
    rw [abs_of_nonneg h, abs_of_nonneg h0]
    exact ⟨h1, h2, mul_nonneg h0 h⟩
  · next h =>
    have hx : 0 ≤ -x := by linarith
    have h1 := Rat.floor_le (-x)
    have h2 : -x < ((-x).floor : Rat) + 1 := by have := Rat.lt_floor_add_one (-x); push_cast at this; exact this
    have h0 : (0 : Rat) ≤ (-x).floor := by
      have : (0 : Int) ≤ (-x).floor := Rat.le_floor_iff.mpr (by simpa using hx)
      exact_mod_cast this
    push_cast
    rw [abs_of_neg (by linarith : x < 0), abs_neg, abs_of_nonneg h0]
    exact ⟨h1, h2, by nlinarith⟩

theorem castCell_stored (d : DType) (hd : d.sized) (x y : Cell) (h : castCell d x = .ok y) : Stored (kindOf d) x y := by
  cases d with
  | int b =>
    cases x with
    | num q =>
      simp only [castCell, Except.ok.injEq] at h
      have hb : 1 ≤ b := hd
      have h2 : ((2 ^ b : Nat) : Int) = 2 ^ (b - 1) * 2 := by
        rw [← pow_succ, show b - 1 + 1 = b by omega]; push_cast; rfl
      have hpos : (0 : Int) < 2 ^ (b - 1) := by positivity
      have hm := Int.emod_nonneg (trunc q) (b := ((2 ^ b : Nat) : Int)) (by rw [h2]; omega)
      have hl := Int.emod_lt_of_pos (trunc q) (b := ((2 ^ b : Nat) : Int)) (by rw [h2]; omega)
      have hdm := Int.emod_add_mul_ediv (trunc q) ((2 ^ b : Nat) : Int)
      have h2' : (2 : Int) ^ b = 2 ^ (b - 1) * 2 := by rw [← h2]; push_cast; rfl
      rw [Int.bmod_def] at h
      rw [h2] at h hm hl hdm
      simp only [kindOf, Stored]
      rw [h2']
      split at h
      · next hc =>
        refine ⟨trunc q, -(trunc q / (2 ^ (b - 1) * 2)), trunc_whole q, ?_, ?_, ?_⟩
        · rw [show trunc q + -(trunc q / (2 ^ (b - 1) * 2)) * (2 ^ (b - 1) * 2) = trunc q % (2 ^ (b - 1) * 2) by linarith [mul_comm (trunc q / (2 ^ (b - 1) * 2)) (2 ^ (b - 1) * 2)]]
          omega
        · rw [show trunc q + -(trunc q / (2 ^ (b - 1) * 2)) * (2 ^ (b - 1) * 2) = trunc q % (2 ^ (b - 1) * 2) by linarith [mul_comm (trunc q / (2 ^ (b - 1) * 2)) (2 ^ (b - 1) * 2)]]
          omega
        · rw [show trunc q + -(trunc q / (2 ^ (b - 1) * 2)) * (2 ^ (b - 1) * 2) = trunc q % (2 ^ (b - 1) * 2) by linarith [mul_comm (trunc q / (2 ^ (b - 1) * 2)) (2 ^ (b - 1) * 2)]]
          exact h.symm
      · next hc =>
        have e : trunc q + (-(trunc q / (2 ^ (b - 1) * 2)) - 1) * (2 ^ (b - 1) * 2) = trunc q % (2 ^ (b - 1) * 2) - 2 ^ (b - 1) * 2 := by
          linarith [mul_comm (trunc q / (2 ^ (b - 1) * 2)) (2 ^ (b - 1) * 2)]
        refine ⟨trunc q, -(trunc q / (2 ^ (b - 1) * 2)) - 1, trunc_whole q, ?_, ?_, ?_⟩
        · rw [e]; omega
        · rw [e]; omega
        · rw [e]; exact h.symm
    | nan => cases h
    | inf _ => cases h
    | text _ => cases h
  | uint b =>
    cases x with
    | num q =>
      simp only [castCell, Except.ok.injEq] at h
      have hpos : (0 : Int) < 2 ^ b := by positivity
      have hm := Int.emod_nonneg (trunc q) (b := (2 ^ b : Int)) (by omega)
      have hl := Int.emod_lt_of_pos (trunc q) hpos
      have hdm := Int.emod_add_mul_ediv (trunc q) (2 ^ b : Int)
      have e : trunc q + -(trunc q / 2 ^ b) * 2 ^ b = trunc q % 2 ^ b := by
        linarith [mul_comm (trunc q / (2 : Int) ^ b) (2 ^ b)]
      refine ⟨trunc q, -(trunc q / 2 ^ b), trunc_whole q, ?_, ?_, ?_⟩
      · rw [e]; exact hm
      · rw [e]; exact hl
      · rw [e]; exact h.symm
    | nan => cases h
    | inf _ => cases h
    | text _ => cases h
  | float16 =>
    cases x with
    | num q =>
      simp only [castCell, Except.ok.injEq] at h
      obtain ⟨r, hr, e⟩ := toFmt_stored half (by decide) q
      exact ⟨r, hr, h ▸ e⟩
    | nan => simp only [castCell, Except.ok.injEq] at h; exact h.symm
    | inf _ => simp only [castCell, Except.ok.injEq] at h; exact h.symm
    | text _ => cases h
  | float32 =>
    cases x with
    | num q =>
      simp only [castCell, Except.ok.injEq] at h
      obtain ⟨r, hr, e⟩ := toFmt_stored single (by decide) q
      exact ⟨r, hr, h ▸ e⟩
    | nan => simp only [castCell, Except.ok.injEq] at h; exact h.symm
    | inf _ => simp only [castCell, Except.ok.injEq] at h; exact h.symm
    | text _ => cases h
  | float64 => cases x <;> simp only [castCell, Except.ok.injEq, reduceCtorEq] at h <;> exact h.symm
  | str => cases x <;> simp only [castCell, Except.ok.injEq, reduceCtorEq] at h <;> exact h.symm
  | category => cases x <;> simp only [castCell, Except.ok.injEq, reduceCtorEq] at h <;> exact h.symm

theorem castCell_ok_iff (d : DType) (x : Cell) : (∃ y, castCell d x = .ok y) ↔ Storable (kindOf d) x := by
  cases d <;> cases x <;> simp [castCell, kindOf, Storable, b16, b32]

theorem castCell_error (d : DType) (x : Cell) (e : Err) (h : castCell d x = .error e) : e = .valueError := by
  cases d <;> cases x <;> simp_all [castCell]

theorem castColumn_ok {d : DType} {xs ys : List Cell} (h : castColumn d xs = .ok ys) :
    List.Forall₂ (fun x y => castCell d x = .ok y) xs ys := by
  induction xs generalizing ys with
  | nil => cases h; exact .nil
  | cons x xs ih =>
    rw [castColumn] at h
    split at h
    · cases h
    · next y hy =>
      split at h
      · cases h
      · next ys' hys => cases h; exact .cons hy (ih hys)

theorem castColumn_ok_iff (d : DType) (xs : List Cell) :
    (∃ ys, castColumn d xs = .ok ys) ↔ ∀ x ∈ xs, Storable (kindOf d) x := by
  induction xs with
  | nil => simp [castColumn]
  | cons x xs ih =>
    rw [List.forall_mem_cons, ← ih, ← castCell_ok_iff, castColumn]
    constructor
    · rintro ⟨ys, h⟩
      split at h
      · cases h
      · next y hy =>
        split at h
        · cases h
        · next ys' hys => exact ⟨⟨y, hy⟩, ⟨ys', hys⟩⟩
    · rintro ⟨⟨y, hy⟩, ⟨ys, hys⟩⟩
      exact ⟨y :: ys, by rw [hy]; simp only [hys]⟩

theorem castColumn_error {d : DType} {xs : List Cell} {e : Err} (h : castColumn d xs = .error e) : e = .valueError := by
  induction xs with
  | nil => cases h
  | cons x xs ih =>
    rw [castColumn] at h
    split at h
    · next hy => cases h; exact castCell_error _ _ _ hy
    · split at h
      · next hys => cases h; exact ih hys
      · cases h

theorem castNamed_ok {c : String} {d : DType} {f g : Frame} (h : castNamed c d f = .ok g) :
    List.Forall₂ (fun p q => q.1 = p.1 ∧ (p.1 = c → castColumn d p.2 = .ok q.2) ∧ (p.1 ≠ c → q.2 = p.2)) f g := by
  induction f generalizing g with
  | nil => cases h; exact .nil
  | cons p f ih =>
    rw [castNamed] at h
    split at h
    · cases h
    · next cells hc =>
      split at h
      · cases h
      · next f' hf =>
        cases h
        refine .cons ⟨rfl, ?_, ?_⟩ (ih hf)
        · intro e; rw [if_pos e] at hc; exact hc
        · intro e; rw [if_neg e] at hc; cases hc; rfl

theorem castNamed_error {c : String} {d : DType} {f : Frame} {e : Err} (h : castNamed c d f = .error e) :
    e = .valueError ∧ ∃ p ∈ f, p.1 = c ∧ ∃ x ∈ p.2, ¬Storable (kindOf d) x := by
  induction f with
  | nil => cases h
  | cons p f ih =>
    rw [castNamed] at h
    split at h
    · next hc =>
      cases h
      split at hc
      · next e1 =>
        refine ⟨castColumn_error hc, p, List.mem_cons_self .., e1, ?_⟩
        by_contra hn
        push Not at hn
        obtain ⟨ys, hys⟩ := (castColumn_ok_iff d p.2).mpr hn
        rw [hys] at hc; cases hc
      · cases hc
    · split at h
      · next hf =>
        cases h
        obtain ⟨h1, q, hq, h2⟩ := ih hf
        exact ⟨h1, q, List.mem_cons_of_mem _ hq, h2⟩
      · cases h

theorem names_eq {R : String × List Cell → String × List Cell → Prop} {f g : Frame} (h : List.Forall₂ R f g)
    (hR : ∀ p q, R p q → q.1 = p.1) : names g = names f := by
  unfold names
  induction h with
  | nil => rfl
  | cons h1 _ ih => rw [List.map_cons, List.map_cons, ih, hR _ _ h1]

/-- what a table of types says of a name -/
def typeOf (ts : List (String × DType)) (n : String) : Option DType :=
  (ts.find? (fun t => decide (t.1 = n))).map Prod.snd

theorem typeOf_cons (c : String) (d : DType) (ts : List (String × DType)) (n : String) :
    typeOf ((c, d) :: ts) n = if c = n then some d else typeOf ts n := by
  unfold typeOf
  rw [List.find?_cons]
  by_cases h : c = n <;> simp [h]

theorem typeOf_none {ts : List (String × DType)} {n : String} (h : n ∉ ts.map Prod.fst) : typeOf ts n = none := by
  unfold typeOf
  rw [Option.map_eq_none_iff, List.find?_eq_none]
  intro t ht
  simp only [decide_eq_true_eq]
  rintro rfl
  exact h (List.mem_map_of_mem ht)

theorem castAll_ok {ts : List (String × DType)} (hn : (ts.map Prod.fst).Nodup) {f g : Frame} (h : castAll ts f = .ok g) :
    List.Forall₂ (fun p q => q.1 = p.1 ∧ (∀ d, typeOf ts p.1 = some d → castColumn d p.2 = .ok q.2) ∧
      (typeOf ts p.1 = none → q.2 = p.2)) f g := by
  induction ts generalizing f with
  | nil =>
    cases h
    exact List.forall₂_same.mpr (fun p _ => ⟨rfl, (fun d hd => by simp [typeOf] at hd), fun _ => rfl⟩)
  | cons t ts ih =>
    obtain ⟨c, d⟩ := t
    rw [castAll] at h
    rw [List.map_cons, List.nodup_cons] at hn
    split at h
    · cases h
    · next f' hf =>
      have h1 := castNamed_ok hf
      have h2 := ih hn.2 h
      clear h hf ih
      induction h1 generalizing g with
      | nil => cases h2; exact .nil
      | @cons p q f f' hp _ ihf =>
        cases h2 with
        | @cons _ r _ g' hq hr =>
          refine .cons ⟨hq.1.trans hp.1, ?_, ?_⟩ (ihf hr)
          · intro d' hd'
            rw [typeOf_cons] at hd'
            split at hd'
            · next e =>
              cases hd'
              have hnone : typeOf ts q.1 = none := by rw [hp.1, ← e]; exact typeOf_none hn.1
              rw [hq.2.2 hnone]
              exact hp.2.1 e.symm
            · next e =>
              have := hq.2.1 d' (by rw [hp.1]; exact hd')
              rw [hp.2.2 (fun h => e h.symm)] at this
              exact this
          · intro hd'
            rw [typeOf_cons] at hd'
            split at hd'
            · cases hd'
            · next e =>
              have := hq.2.2 (by rw [hp.1]; exact hd')
              rw [hp.2.2 (fun h => e h.symm)] at this
              exact this

theorem castAll_error {ts : List (String × DType)} {f : Frame} {e : Err} (h : castAll ts f = .error e) : e = .valueError := by
  induction ts generalizing f with
  | nil => cases h
  | cons t ts ih =>
    obtain ⟨c, d⟩ := t
    rw [castAll] at h
    split at h
    · next hf => cases h; exact (castNamed_error hf).1
    · exact ih h

/-- every cell has a value in the type of its column -/
def Fits (ts : List (String × DType)) (f : Frame) : Prop :=
  ∀ p ∈ f, ∀ d, typeOf ts p.1 = some d → ∀ x ∈ p.2, Storable (kindOf d) x

theorem forall₂_mem_right {α β : Type} {R : α → β → Prop} {l : List α} {m : List β} (h : List.Forall₂ R l m) :
    ∀ b ∈ m, ∃ a ∈ l, R a b := by
  induction h with
  | nil => simp
  | cons h1 _ ih =>
    intro b hb
    rcases List.mem_cons.mp hb with rfl | hb
    · exact ⟨_, List.mem_cons_self .., h1⟩
    · obtain ⟨a, ha, hr⟩ := ih b hb
      exact ⟨a, List.mem_cons_of_mem _ ha, hr⟩

theorem forall₂_mem_left {α β : Type} {R : α → β → Prop} {l : List α} {m : List β} (h : List.Forall₂ R l m) :
    ∀ a ∈ l, ∃ b ∈ m, R a b := by
  induction h with
  | nil => simp
  | cons h1 _ ih =>
    intro b hb
    rcases List.mem_cons.mp hb with rfl | hb
    · exact ⟨_, List.mem_cons_self .., h1⟩
    · obtain ⟨a, ha, hr⟩ := ih b hb
      exact ⟨a, List.mem_cons_of_mem _ ha, hr⟩

theorem castAll_ok_iff {ts : List (String × DType)} (hn : (ts.map Prod.fst).Nodup) {f : Frame} :
    (∃ g, castAll ts f = .ok g) ↔ Fits ts f := by
  constructor
  · rintro ⟨g, h⟩ p hp d hd
    obtain ⟨q, _, h1⟩ := forall₂_mem_left (castAll_ok hn h) p hp
    exact (castColumn_ok_iff d p.2).mp ⟨q.2, h1.2.1 d hd⟩
  · intro hf
    induction ts generalizing f with
    | nil => exact ⟨f, rfl⟩
    | cons t ts ih =>
      obtain ⟨c, d⟩ := t
      rw [List.map_cons, List.nodup_cons] at hn
      rw [castAll]
      cases h : castNamed c d f with
      | error e =>
        obtain ⟨_, p, hp, hc, x, hx, hns⟩ := castNamed_error h
        exact absurd (hf p hp d (by rw [typeOf_cons, if_pos hc.symm]) x hx) hns
      | ok f' =>
        apply ih hn.2
        intro q hq d' hd' x hx
        obtain ⟨p, hp, h1⟩ := forall₂_mem_right (castNamed_ok h) q hq
        rw [h1.1] at hd'
        by_cases hc : p.1 = c
        · rw [hc, typeOf_none hn.1] at hd'; cases hd'
        · rw [h1.2.2 hc] at hx
          exact hf p hp d' (by rw [typeOf_cons, if_neg (fun h => hc h.symm)]; exact hd') x hx

theorem hasNull_iff (c : String) (f : Frame) : hasNull c f = true ↔ ∃ p ∈ f, p.1 = c ∧ Cell.nan ∈ p.2 := by
  unfold hasNull
  simp only [List.any_eq_true, Bool.and_eq_true, decide_eq_true_eq]
  constructor
  · rintro ⟨p, hp, hc, x, hx, rfl⟩; exact ⟨p, hp, hc, hx⟩
  · rintro ⟨p, hp, hc, hx⟩; exact ⟨p, hp, hc, _, hx, rfl⟩

theorem hasNull_other {c n : String} {d : DType} {f g : Frame} (h : castNamed c d f = .ok g) (hn : n ≠ c) :
    hasNull n g = hasNull n f := by
  rw [Bool.eq_iff_iff, hasNull_iff, hasNull_iff]
  constructor
  · rintro ⟨q, hq, hc, hx⟩
    obtain ⟨p, hp, h1⟩ := forall₂_mem_right (castNamed_ok h) q hq
    refine ⟨p, hp, h1.1.symm.trans hc, ?_⟩
    rw [← h1.2.2 (fun e => hn (by rw [← hc, h1.1, e]))]; exact hx
  · rintro ⟨p, hp, hc, hx⟩
    obtain ⟨q, hq, h1⟩ := forall₂_mem_left (castNamed_ok h) p hp
    refine ⟨q, hq, h1.1.trans hc, ?_⟩
    rw [h1.2.2 (fun e => hn (by rw [← hc, e]))]; exact hx

theorem castComplete_ok {ts : List (String × DType)} (hn : (ts.map Prod.fst).Nodup) {f g : Frame} (N : String → Bool)
    (hN : ∀ n ∈ ts.map Prod.fst, N n = hasNull n f) (h : castComplete ts f = .ok g) :
    List.Forall₂ (fun p q => q.1 = p.1 ∧ (∀ d, typeOf ts p.1 = some d → N p.1 = false → castColumn d p.2 = .ok q.2) ∧
      (typeOf ts p.1 = none ∨ N p.1 = true → q.2 = p.2)) f g := by
  induction ts generalizing f with
  | nil =>
    cases h
    exact List.forall₂_same.mpr (fun p _ => ⟨rfl, (fun d hd => by simp [typeOf] at hd), fun _ => rfl⟩)
  | cons t ts ih =>
    obtain ⟨c, d⟩ := t
    rw [castComplete] at h
    rw [List.map_cons, List.nodup_cons] at hn
    have hNc : N c = hasNull c f := hN c (by simp)
    split at h
    · next hnull =>
      have h2 := ih hn.2 (fun n hn' => hN n (List.mem_cons_of_mem _ hn')) h
      refine h2.imp (fun p q hq => ⟨hq.1, ?_, ?_⟩)
      · intro d' hd' hf
        rw [typeOf_cons] at hd'
        split at hd'
        · next e => rw [← e, hNc, hnull] at hf; cases hf
        · exact hq.2.1 d' hd' hf
      · rintro (hd' | hf)
        · rw [typeOf_cons] at hd'
          split at hd'
          · cases hd'
          · exact hq.2.2 (.inl hd')
        · exact hq.2.2 (.inr hf)
    · next hnull =>
      split at h
      · cases h
      · next f' hf =>
        have hNc' : N c = false := by rw [hNc]; exact eq_false_of_ne_true hnull
        have h1 := castNamed_ok hf
        have h2 := ih hn.2 (fun n hn' => (hN n (List.mem_cons_of_mem _ hn')).trans
          (hasNull_other hf (fun e => hn.1 (e ▸ hn'))).symm) h
        clear h hf ih hN hnull hNc
        induction h1 generalizing g with
        | nil => cases h2; exact .nil
        | @cons p q f f' hp _ ihf =>
          cases h2 with
          | @cons _ r _ g' hq hr =>
            refine .cons ⟨hq.1.trans hp.1, ?_, ?_⟩ (ihf hr)
            · intro d' hd' hf
              rw [typeOf_cons] at hd'
              split at hd'
              · next e =>
                cases hd'
                have hnone : typeOf ts q.1 = none := by rw [hp.1, ← e]; exact typeOf_none hn.1
                rw [hq.2.2 (.inl hnone)]
                exact hp.2.1 e.symm
              · next e =>
                have := hq.2.1 d' (by rw [hp.1]; exact hd') (by rw [hp.1]; exact hf)
                rw [hp.2.2 (fun h => e h.symm)] at this
                exact this
            · intro hd'
              by_cases e : p.1 = c
              · exfalso
                rcases hd' with hd' | hd'
                · rw [typeOf_cons, if_pos e.symm] at hd'; cases hd'
                · rw [e, hNc'] at hd'; cases hd'
              · have := hq.2.2 (by
                  rw [hp.1]
                  rcases hd' with hd' | hd'
                  · rw [typeOf_cons, if_neg (fun h => e h.symm)] at hd'; exact .inl hd'
                  · exact .inr hd')
                rw [hp.2.2 e] at this
                exact this

theorem castComplete_error {ts : List (String × DType)} {f : Frame} {e : Err} (h : castComplete ts f = .error e) :
    e = .valueError := by
  induction ts generalizing f with
  | nil => cases h
  | cons t ts ih =>
    obtain ⟨c, d⟩ := t
    rw [castComplete] at h
    split at h
    · exact ih h
    · split at h
      · next hf => cases h; exact (castNamed_error hf).1
      · exact ih h

/-! ### Names -/

theorem toLower_spec (a : Char) : if 'A' ≤ a ∧ a ≤ 'Z' then a.toLower.toNat = a.toNat + 32 else a.toLower = a := by
  unfold Char.toLower
  split
  · next h =>
    have h1 : 65 ≤ a.val.toNat := h.1
    have h2 : a.val.toNat ≤ 90 := h.2
    split
    · show (a.val + 32).toNat = a.val.toNat + 32
      rw [UInt32.toNat_add]
      show (a.val.toNat + 32) % 4294967296 = a.val.toNat + 32
      omega
    · next h' => exact absurd h h'
  · next h =>
    split
    · next h' => exact absurd h' h
    · rfl

theorem lowerOf (s : String) : LowerOf s (String.ofList (lower s)) := by
  unfold LowerOf lower
  rw [String.toList_ofList]
  rw [List.forall₂_map_right_iff]
  exact List.forall₂_same.mpr (fun a _ => toLower_spec a)

theorem newName_published {t t' : List (String × String)} (h1 : ∀ p ∈ t, p ∈ t') (h2 : ∀ p ∈ t', p ∈ t) (n : String) :
    Published t' n (newName t n) := by
  unfold newName Published
  cases h : t.find? (fun p => decide (p.1 = n)) with
  | some p =>
    left
    have e := List.find?_some h
    simp only [decide_eq_true_eq] at e
    have := h1 p (List.mem_of_find?_eq_some h)
    rw [← e]; exact this
  | none =>
    right
    refine ⟨fun m hm => ?_, rfl⟩
    rw [List.find?_eq_none] at h
    have := h _ (h2 _ hm)
    simp at this

/-! ### Kinds -/

/-- the types of a reader are the published kinds -/
structure Agree (ts : List (String × DType)) (ks : List (List String × Kind)) : Prop where
  nodup : (ts.map Prod.fst).Nodup
  sized : ∀ t ∈ ts, t.2.sized
  kind : ∀ t ∈ ts, ∀ k ∈ ks, t.1 ∈ k.1 → k.2 = kindOf t.2
  of : ∀ k ∈ ks, ∀ n ∈ k.1, n ∈ ts.map Prod.fst
  all : ∀ t ∈ ts, ∃ k ∈ ks, t.1 ∈ k.1

theorem typeOf_mem {ts : List (String × DType)} {n : String} {d : DType} (h : typeOf ts n = some d) : (n, d) ∈ ts := by
  unfold typeOf at h
  rw [Option.map_eq_some_iff] at h
  obtain ⟨t, ht, rfl⟩ := h
  have e := List.find?_some ht
  simp only [decide_eq_true_eq] at e
  rw [← e]
  exact List.mem_of_find?_eq_some ht

theorem typeOf_some {ts : List (String × DType)} {n : String} (h : n ∈ ts.map Prod.fst) : ∃ d, typeOf ts n = some d := by
  cases e : typeOf ts n with
  | some d => exact ⟨d, rfl⟩
  | none =>
    unfold typeOf at e
    rw [Option.map_eq_none_iff, List.find?_eq_none] at e
    obtain ⟨t, ht, rfl⟩ := List.mem_map.mp h
    have := e t ht
    simp at this

theorem Agree.storedAs {ts : List (String × DType)} {ks : List (List String × Kind)} (ha : Agree ts ks) {n : String}
    {xs ys : List Cell} (h1 : ∀ d, typeOf ts n = some d → castColumn d xs = .ok ys) (h2 : typeOf ts n = none → ys = xs) :
    StoredAs ks n xs ys := by
  constructor
  · rintro k ⟨l, hk, hn⟩
    obtain ⟨d, hd⟩ := typeOf_some (ha.of _ hk n hn)
    have hm := typeOf_mem hd
    have e : k = kindOf d := ha.kind _ hm _ hk hn
    subst e
    exact (castColumn_ok (h1 d hd)).imp (fun x y h => castCell_stored d (ha.sized _ hm) x y h)
  · intro hno
    apply h2
    by_contra hc
    obtain ⟨d, hd⟩ := Option.ne_none_iff_exists'.mp hc
    obtain ⟨k, hk, hn⟩ := ha.all _ (typeOf_mem hd)
    exact hno k.2 ⟨k.1, hk, hn⟩

theorem Agree.storable {ts : List (String × DType)} {ks : List (List String × Kind)} (ha : Agree ts ks) (f : Frame) :
    Fits ts f ↔ ∀ p ∈ f, ∀ k, HasKind ks p.1 k → ∀ x ∈ p.2, Storable k x := by
  constructor
  · rintro h p hp k ⟨l, hk, hn⟩ x hx
    obtain ⟨d, hd⟩ := typeOf_some (ha.of _ hk _ hn)
    have e : k = kindOf d := ha.kind _ (typeOf_mem hd) _ hk hn
    subst e
    exact h p hp d hd x hx
  · intro h p hp d hd x hx
    obtain ⟨k, hk, hn⟩ := ha.all _ (typeOf_mem hd)
    have e : k.2 = kindOf d := ha.kind _ (typeOf_mem hd) _ hk hn
    rw [← e]
    exact h p hp k.2 ⟨k.1, hk, hn⟩ x hx

end Beep.Casts
