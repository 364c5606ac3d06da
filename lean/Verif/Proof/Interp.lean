import Verif.Proof.Steps
import Verif.Model.Interp
import Verif.Spec.Interp
/-
Helper lemmas for Props/Interp.
-/
namespace Beep.Interp
open Beep.Pandas Beep.Steps Beep.Spec.Interp

/-! ### the grid -/

theorem length_linspace (a b : Rat) (n : Nat) : (linspace a b n).length = n := by
  match n with
  | 0 => rfl
  | 1 => rfl
  | n + 2 => simp [linspace]

theorem getElem?_linspace (a b : Rat) (n : Nat) (hn : 2 ≤ n) (i : Nat) (hi : i < n) :
    (linspace a b n)[i]? = some (a + (i : Rat) * ((b - a) / ((n : Rat) - 1))) := by
  match n, hn with
  | n + 2, _ =>
    have h : i < (List.range (n + 2)).length := by simpa using hi
    simp only [linspace, List.getElem?_map, List.getElem?_range hi, Option.map_some]

theorem linspace_strict (a b : Rat) (n : Nat) (hab : a < b) : (linspace a b n).Pairwise (· < ·) := by
  match n with
  | 0 => simp [linspace]
  | 1 => simp [linspace]
  | n + 2 =>
    simp only [linspace]
    rw [List.pairwise_map]
    have hpos : (0 : Rat) < (b - a) / (((n + 2 : Nat) : Rat) - 1) := by
      apply div_pos (by linarith)
      push_cast
      have : (0 : Rat) ≤ (n : Rat) := by exact_mod_cast Nat.zero_le n
      linarith
    refine List.pairwise_lt_range.imp ?_
    intro i j hij
    have hij' : (i : Rat) < (j : Rat) := by exact_mod_cast hij
    have := mul_lt_mul_of_pos_right hij' hpos
    linarith

theorem linspace_strict_desc (a b : Rat) (n : Nat) (hab : b < a) : (linspace a b n).Pairwise (· > ·) := by
  match n with
  | 0 => simp [linspace]
  | 1 => simp [linspace]
  | n + 2 =>
    simp only [linspace]
    rw [List.pairwise_map]
    have hpos : (b - a) / (((n + 2 : Nat) : Rat) - 1) < 0 := by
      apply div_neg_of_neg_of_pos (by linarith)
      push_cast
      have : (0 : Rat) ≤ (n : Rat) := by exact_mod_cast Nat.zero_le n
      linarith
    refine List.pairwise_lt_range.imp ?_
    intro i j hij
    have hij' : (i : Rat) < (j : Rat) := by exact_mod_cast hij
    have := mul_lt_mul_of_neg_right hij' hpos
    simp only [gt_iff_lt]
    linarith

theorem sort_of_strict {l : List Rat} (h : l.Pairwise (· < ·)) :
    unique (sortBy (fun p q => decide (p ≤ q)) l) = l := by
  rw [sortBy_of_pairwise (h.imp (fun {a b} hab => by simpa using le_of_lt hab))]
  exact unique_of_nodup (h.imp (fun hab => ne_of_lt hab))

theorem sort_of_strict_desc {l : List Rat} (h : l.Pairwise (· > ·)) :
    unique (sortBy (fun p q => decide (p ≤ q)) l) = l.reverse := by
  have hs : (sortBy (fun p q => decide (p ≤ q)) l).Pairwise (fun p q => decide (p ≤ q) = true) := by
    apply pairwise_sortBy
    · intro a b c h1 h2; simp only [decide_eq_true_eq] at *; exact le_trans h1 h2
    · intro a b; simp only [Bool.or_eq_true, decide_eq_true_eq]; exact le_total a b
  have hr : l.reverse.Pairwise (fun p q : Rat => decide (p ≤ q) = true) := by
    rw [List.pairwise_reverse]
    exact h.imp (fun {a b} hab => by simpa using le_of_lt hab)
  have hp : (sortBy (fun p q => decide (p ≤ q)) l).Perm l.reverse :=
    (sortBy_perm _ _).trans (List.reverse_perm l).symm
  have e : sortBy (fun p q => decide (p ≤ q)) l = l.reverse := by
    apply List.Perm.eq_of_pairwise _ hs hr hp
    intro a b _ _ h1 h2
    simp only [decide_eq_true_eq] at h1 h2
    exact le_antisymm h1 h2
  rw [e]
  apply unique_of_nodup
  rw [List.nodup_reverse]
  exact h.imp (fun hab => ne_of_gt hab)

theorem sort_const (a : Rat) (n : Nat) (hn : n ≠ 0) :
    unique (sortBy (fun p q => decide (p ≤ q)) (linspace a a n)) = [a] := by
  have hall : ∀ x ∈ linspace a a n, x = a := by
    intro x hx
    match n with
    | 0 => simp [linspace] at hx
    | 1 => simpa [linspace] using hx
    | n + 2 =>
      simp only [linspace, List.mem_map] at hx
      obtain ⟨i, _, rfl⟩ := hx
      simp
  have hall' : ∀ x ∈ unique (sortBy (fun p q => decide (p ≤ q)) (linspace a a n)), x = a := by
    intro x hx
    rw [mem_unique, mem_sortBy] at hx
    exact hall x hx
  have hne : linspace a a n ≠ [] := by
    intro h; have := length_linspace a a n; rw [h] at this; simp at this; exact hn this.symm
  obtain ⟨y, hy⟩ := List.exists_mem_of_ne_nil _ hne
  have ha : a ∈ unique (sortBy (fun p q => decide (p ≤ q)) (linspace a a n)) := by
    rw [mem_unique, mem_sortBy]; exact hall y hy ▸ hy
  have hnd := nodup_unique (sortBy (fun p q => decide (p ≤ q)) (linspace a a n))
  generalize unique (sortBy (fun p q => decide (p ≤ q)) (linspace a a n)) = L at *
  match L with
  | [] => simp at ha
  | [x] => simp at ha; simp [ha]
  | x :: y :: L =>
    have e1 := hall' x (by simp)
    have e2 := hall' y (by simp)
    simp [e1, e2] at hnd

/-! ### the known points -/

theorem mem_known (t : Table) (j : Nat) (x y : Rat) : (x, y) ∈ known t j ↔ Measured t j x y := by
  unfold known Measured
  rw [mem_sortBy, List.mem_filterMap]
  constructor
  · rintro ⟨⟨x', vals⟩, hm, h⟩
    simp only at h
    split at h
    · rename_i y' hy
      cases h
      exact ⟨vals, hm, hy⟩
    · cases h
  · rintro ⟨vals, hm, hy⟩
    exact ⟨_, hm, by simp [hy]⟩

theorem known_sorted (t : Table) (j : Nat) (hd : DistinctAxis t) :
    (known t j).Pairwise (fun p q => p.1 < q.1) := by
  have h1 : (known t j).Pairwise (fun p q => decide (p.1 ≤ q.1) = true) := by
    unfold known
    apply pairwise_sortBy
    · intro a b c h1 h2; simp only [decide_eq_true_eq] at *; exact le_trans h1 h2
    · intro a b; simp only [Bool.or_eq_true, decide_eq_true_eq]; exact le_total a.1 b.1
  have h2 : (known t j).Pairwise (fun p q => p.1 ≠ q.1) := by
    have hp := sortBy_perm (fun p q => decide (p.1 ≤ q.1)) (t.filterMap (fun r => match r.2[j]? with
      | some (some y) => some (r.1, y)
      | _ => none))
    unfold known
    refine (List.Perm.pairwise_iff (R := fun p q : Rat × Rat => p.1 ≠ q.1) (fun h => Ne.symm h) hp).mpr ?_
    unfold DistinctAxis at hd
    have hd' : t.Pairwise (fun p q => p.1 ≠ q.1) := by
      rw [List.Nodup, List.pairwise_map] at hd; exact hd
    rw [List.pairwise_filterMap]
    refine hd'.imp ?_
    intro p q hpq a ha b hb
    have e1 : a.1 = p.1 := by
      split at ha
      · cases ha; rfl
      · cases ha
    have e2 : b.1 = q.1 := by
      split at hb
      · cases hb; rfl
      · cases hb
    rw [e1, e2]; exact hpq
  exact (h1.and h2).imp (fun {a b} h => by
    simp only [decide_eq_true_eq] at h
    exact lt_of_le_of_ne h.1 h.2)

/-! ### interpolation between sorted points -/

theorem interpFrom_at (x0 y0 : Rat) (rest : List (Rat × Rat))
    (hs : ((x0, y0) :: rest).Pairwise (fun p q => p.1 < q.1)) (x y : Rat)
    (hm : (x, y) ∈ (x0, y0) :: rest) : interpFrom x0 y0 rest x = y := by
  induction rest generalizing x0 y0 with
  | nil =>
    simp only [List.mem_cons, Prod.mk.injEq, List.not_mem_nil, or_false] at hm
    simp [interpFrom, hm.2]
  | cons p rest ih =>
    obtain ⟨x1, y1⟩ := p
    have hs' := List.pairwise_cons.mp hs
    rcases List.mem_cons.mp hm with h | h
    · cases h
      have : x < x1 := hs'.1 (x1, y1) (List.mem_cons_self ..)
      simp [interpFrom, this]
    · have hx1 : ¬ x < x1 := by
        rcases List.mem_cons.mp h with h | h
        · cases h; exact lt_irrefl _
        · have := (List.pairwise_cons.mp hs'.2).1 _ h
          exact not_lt.mpr (le_of_lt this)
      simp only [interpFrom, hx1, if_false]
      exact ih x1 y1 hs'.2 h

theorem interpFrom_between (x0 y0 : Rat) (rest : List (Rat × Rat))
    (hs : ((x0, y0) :: rest).Pairwise (fun p q => p.1 < q.1)) (p yp q yq x : Rat)
    (hp : (p, yp) ∈ (x0, y0) :: rest) (hq : (q, yq) ∈ (x0, y0) :: rest) (hpq : p < q)
    (hno : ∀ z ∈ (x0, y0) :: rest, z.1 ≤ p ∨ q ≤ z.1) (h1 : p ≤ x) (h2 : x ≤ q) :
    interpFrom x0 y0 rest x = yp + (yq - yp) * ((x - p) / (q - p)) := by
  induction rest generalizing x0 y0 with
  | nil =>
    simp only [List.mem_cons, Prod.mk.injEq, List.not_mem_nil, or_false] at hp hq
    rw [hp.1, hq.1] at hpq; exact absurd hpq (lt_irrefl _)
  | cons r rest ih =>
    obtain ⟨x1, y1⟩ := r
    have hs' := List.pairwise_cons.mp hs
    have h01 : x0 < x1 := hs'.1 (x1, y1) (List.mem_cons_self ..)
    have hq' : (q, yq) ∈ (x1, y1) :: rest := by
      rcases List.mem_cons.mp hq with h | h
      · cases h
        exfalso
        rcases List.mem_cons.mp hp with h | h
        · cases h; exact lt_irrefl _ hpq
        · have := hs'.1 _ h; simp only at this; linarith
      · exact h
    rcases List.mem_cons.mp hp with h | h
    · cases h
      -- p = x0, so q must be x1
      have hx1q : x1 = q := by
        rcases hno (x1, y1) (by simp) with h | h
        · exact absurd h (not_le.mpr h01)
        · apply le_antisymm _ h
          rcases List.mem_cons.mp hq' with h' | h'
          · cases h'; exact le_refl _
          · exact le_of_lt ((List.pairwise_cons.mp hs'.2).1 _ h')
      subst hx1q
      have hy : yq = y1 := by
        rcases List.mem_cons.mp hq' with h' | h'
        · cases h'; rfl
        · have := (List.pairwise_cons.mp hs'.2).1 _ h'; simp at this
      subst hy
      by_cases hx : x < x1
      · simp [interpFrom, hx]
      · have : x = x1 := le_antisymm h2 (not_lt.mp hx)
        subst this
        simp only [interpFrom, lt_irrefl, if_false]
        rw [interpFrom_at x yq rest hs'.2 x yq (List.mem_cons_self ..)]
        have : x - p ≠ 0 := ne_of_gt (sub_pos.mpr hpq)
        field_simp
        ring
    · have hx : ¬ x < x1 := by
        have : x1 ≤ p := by
          rcases List.mem_cons.mp h with h' | h'
          · cases h'; exact le_refl _
          · exact le_of_lt ((List.pairwise_cons.mp hs'.2).1 _ h')
        exact not_lt.mpr (le_trans this h1)
      simp only [interpFrom, hx, if_false]
      exact ih x1 y1 hs'.2 h hq' (fun z hz => hno z (List.mem_cons_of_mem _ hz))

theorem interpFrom_bounds (x0 y0 : Rat) (rest : List (Rat × Rat))
    (hs : ((x0, y0) :: rest).Pairwise (fun p q => p.1 < q.1)) (x : Rat) (hx : x0 ≤ x) :
    ∃ lo ∈ (x0, y0) :: rest, ∃ hi ∈ (x0, y0) :: rest,
      lo.2 ≤ interpFrom x0 y0 rest x ∧ interpFrom x0 y0 rest x ≤ hi.2 := by
  induction rest generalizing x0 y0 with
  | nil => exact ⟨(x0, y0), by simp, (x0, y0), by simp, by simp [interpFrom]⟩
  | cons r rest ih =>
    obtain ⟨x1, y1⟩ := r
    have hs' := List.pairwise_cons.mp hs
    have h01 : x0 < x1 := hs'.1 (x1, y1) (List.mem_cons_self ..)
    by_cases h : x < x1
    · simp only [interpFrom, h, if_true]
      have d : 0 < x1 - x0 := by linarith
      have t0 : 0 ≤ (x - x0) / (x1 - x0) := div_nonneg (by linarith) (le_of_lt d)
      have t1 : (x - x0) / (x1 - x0) ≤ 1 := by rw [div_le_one d]; linarith
      generalize (x - x0) / (x1 - x0) = s at t0 t1
      rcases le_total y0 y1 with hy | hy
      · refine ⟨(x0, y0), by simp, (x1, y1), by simp, ?_, ?_⟩
        · have := mul_nonneg (sub_nonneg.mpr hy) t0; simp only; linarith
        · have := mul_le_mul_of_nonneg_left t1 (sub_nonneg.mpr hy); simp only; linarith
      · refine ⟨(x1, y1), by simp, (x0, y0), by simp, ?_, ?_⟩
        · have := mul_le_mul_of_nonneg_left t1 (sub_nonneg.mpr hy); simp only; linarith
        · have := mul_nonneg (sub_nonneg.mpr hy) t0; simp only; linarith
    · simp only [interpFrom, h, if_false]
      obtain ⟨lo, hlo, hi, hhi, h1, h2⟩ := ih x1 y1 hs'.2 (not_lt.mp h)
      exact ⟨lo, List.mem_cons_of_mem _ hlo, hi, List.mem_cons_of_mem _ hhi, h1, h2⟩

/-! ### rows at the grid point -/

theorem find_first {t : Table} {x : Rat} {r : Rat × List (Option Rat)} (h : t.find? (fun r => decide (r.1 = x)) = some r) :
    FirstAt t x r.2 := by
  rw [List.find?_eq_some_iff_append] at h
  obtain ⟨h1, a, b, rfl, h2⟩ := h
  rw [decide_eq_true_eq] at h1
  subst h1
  exact ⟨a, b, rfl, fun q hq => by simpa using h2 q hq⟩

theorem first_find {t : Table} {x : Rat} {vals : List (Option Rat)} (h : FirstAt t x vals) :
    t.find? (fun r => decide (r.1 = x)) = some (x, vals) := by
  obtain ⟨a, b, rfl, h⟩ := h
  rw [List.find?_eq_some_iff_append]
  exact ⟨by simp, a, b, rfl, fun q hq => by simpa using h q hq⟩

theorem known_le (t : Table) (j : Nat) : (known t j).Pairwise (fun p q => p.1 ≤ q.1) := by
  have h1 : (known t j).Pairwise (fun p q => decide (p.1 ≤ q.1) = true) := by
    unfold known
    apply pairwise_sortBy
    · intro a b c h1 h2; simp only [decide_eq_true_eq] at *; exact le_trans h1 h2
    · intro a b; simp only [Bool.or_eq_true, decide_eq_true_eq]; exact le_total a.1 b.1
  exact h1.imp (fun h => by simpa using h)

theorem interpAt_none {l : List (Rat × Rat)} (hs : l.Pairwise (fun p q => p.1 ≤ q.1)) (x : Rat) :
    interpAt l x = none ↔ ∀ p ∈ l, x < p.1 := by
  cases l with
  | nil => simp [interpAt]
  | cons p l =>
    have hs' := List.pairwise_cons.mp hs
    by_cases h : x < p.1
    · simp only [interpAt, h, if_true, true_iff]
      intro q hq
      rcases List.mem_cons.mp hq with rfl | hq
      · exact h
      · exact lt_of_lt_of_le h (hs'.1 q hq)
    · simp only [interpAt, h, if_false, reduceCtorEq, false_iff, not_forall]
      exact ⟨p, by simp, h⟩

theorem valueAt_distinct {t : Table} (hd : DistinctAxis t) (j : Nat) (x : Rat) :
    valueAt t j x = interpAt (known t j) x := by
  unfold valueAt
  cases hf : t.find? (fun r => decide (r.1 = x)) with
  | none => rfl
  | some r =>
    have hmem := List.mem_of_find?_eq_some hf
    have hx : r.1 = x := by simpa using List.find?_some hf
    simp only
    have hs := known_sorted t j hd
    split
    · rename_i y hy
      have hk : (x, y) ∈ known t j := (mem_known ..).mpr ⟨r.2, hx ▸ hmem, hy⟩
      match hl : known t j with
      | [] => rw [hl] at hk; cases hk
      | (x0, y0) :: rest =>
        rw [hl] at hs hk
        have h0 : ¬ x < x0 := by
          rcases List.mem_cons.mp hk with e | e
          · cases e; exact lt_irrefl _
          · exact not_lt.mpr (le_of_lt ((List.pairwise_cons.mp hs).1 _ e))
        simp only [interpAt, h0, if_false, interpFrom_at x0 y0 rest hs x y hk]
    · rename_i hno
      split
      · rfl
      · rename_i hlt
        symm
        rw [interpAt_none (known_le t j)]
        intro p hp
        have h1 : ¬ p.1 < x := fun h => hlt (List.any_eq_true.mpr ⟨p, hp, by simpa using h⟩)
        refine lt_of_le_of_ne (not_lt.mp h1) (fun e => ?_)
        obtain ⟨vals, hv, hy⟩ := (mem_known t j p.1 p.2).mp hp
        have : (p.1, vals) = r := by
          unfold DistinctAxis at hd
          exact List.inj_on_of_nodup_map hd hv hmem (by simp [hx, e])
        exact hno p.2 (by rw [← this]; exact hy)

/-- what `np.interp` gives: a reading at or before the point that is the last of all, or the line to the next reading -/
theorem interpFrom_cases (x0 y0 : Rat) (rest : List (Rat × Rat))
    (hs : ((x0, y0) :: rest).Pairwise (fun p q => p.1 ≤ q.1)) (x : Rat) (hx : x0 ≤ x) :
    ∃ p ∈ (x0, y0) :: rest, p.1 ≤ x ∧ (((∀ z ∈ (x0, y0) :: rest, z.1 ≤ p.1) ∧ interpFrom x0 y0 rest x = p.2) ∨
      ∃ q ∈ (x0, y0) :: rest, x < q.1 ∧ (∀ z ∈ (x0, y0) :: rest, z.1 ≤ p.1 ∨ q.1 ≤ z.1) ∧
        interpFrom x0 y0 rest x = p.2 + (q.2 - p.2) * ((x - p.1) / (q.1 - p.1))) := by
  induction rest generalizing x0 y0 with
  | nil => exact ⟨(x0, y0), by simp, hx, .inl ⟨by simp, rfl⟩⟩
  | cons r rest ih =>
    obtain ⟨x1, y1⟩ := r
    have hs' := List.pairwise_cons.mp hs
    have hs1 := List.pairwise_cons.mp hs'.2
    have h01 : x0 ≤ x1 := hs'.1 (x1, y1) (List.mem_cons_self ..)
    by_cases h : x < x1
    · refine ⟨(x0, y0), by simp, hx, .inr ⟨(x1, y1), by simp, h, ?_, by simp [interpFrom, h]⟩⟩
      intro z hz
      rcases List.mem_cons.mp hz with rfl | hz
      · exact .inl (le_refl _)
      · rcases List.mem_cons.mp hz with rfl | hz
        · exact .inr (le_refl _)
        · exact .inr (hs1.1 z hz)
    · obtain ⟨p, hp, hpx, hc⟩ := ih x1 y1 hs'.2 (not_lt.mp h)
      have hp1 : x1 ≤ p.1 := by
        rcases List.mem_cons.mp hp with rfl | hp
        · exact le_refl _
        · exact hs1.1 p hp
      refine ⟨p, List.mem_cons_of_mem _ hp, hpx, ?_⟩
      simp only [interpFrom, h, if_false]
      rcases hc with ⟨ha, he⟩ | ⟨q, hq, hxq, ha, he⟩
      · refine .inl ⟨fun z hz => ?_, he⟩
        rcases List.mem_cons.mp hz with rfl | hz
        · exact le_trans h01 hp1
        · exact ha z hz
      · refine .inr ⟨q, List.mem_cons_of_mem _ hq, hxq, fun z hz => ?_, he⟩
        rcases List.mem_cons.mp hz with rfl | hz
        · exact .inl (le_trans h01 hp1)
        · exact ha z hz

/-! ### collect -/

theorem collect_cons {α β : Type} {f : α → Except Err (List β)} {a : α} {as : List α} {out : List β}
    (h : collect f (a :: as) = .ok out) :
    ∃ b, f a = .ok b ∧ ∃ bs, collect f as = .ok bs ∧ out = b ++ bs := by
  unfold collect at h
  split at h
  · cases h
  rename_i b hb
  split at h
  · cases h
  rename_i bs hbs
  cases h
  exact ⟨b, hb, bs, hbs, rfl⟩

theorem collect_mem {α β : Type} {f : α → Except Err (List β)} {as : List α} {out : List β}
    (h : collect f as = .ok out) {r : β} (hr : r ∈ out) : ∃ a ∈ as, ∃ b, f a = .ok b ∧ r ∈ b := by
  induction as generalizing out with
  | nil => simp [collect] at h; subst h; cases hr
  | cons a as ih =>
    obtain ⟨b, hb, bs, hbs, rfl⟩ := collect_cons h
    rcases List.mem_append.mp hr with h | h
    · exact ⟨a, by simp, b, hb, h⟩
    · obtain ⟨a', ha', x⟩ := ih hbs h
      exact ⟨a', List.mem_cons_of_mem _ ha', x⟩

theorem collect_count_zero {α β : Type} {f : α → Except Err (List β)} {p : β → Bool} {as : List α}
    {out : List β} (h : collect f as = .ok out)
    (h0 : ∀ a ∈ as, ∀ b, f a = .ok b → b.countP p = 0) : out.countP p = 0 := by
  induction as generalizing out with
  | nil => simp [collect] at h; subst h; rfl
  | cons a as ih =>
    obtain ⟨b, hb, bs, hbs, rfl⟩ := collect_cons h
    rw [List.countP_append, h0 a (by simp) b hb,
      ih hbs (fun a ha => h0 a (List.mem_cons_of_mem _ ha))]

theorem collect_countP {α β : Type} {f : α → Except Err (List β)} {p : β → Bool} {as : List α}
    {out : List β} (h : collect f as = .ok out) (hn : as.Nodup) (a0 : α) (hm : a0 ∈ as)
    (h0 : ∀ a ∈ as, a ≠ a0 → ∀ b, f a = .ok b → b.countP p = 0) :
    ∃ b, f a0 = .ok b ∧ out.countP p = b.countP p := by
  induction as generalizing out with
  | nil => cases hm
  | cons a as ih =>
    obtain ⟨b, hb, bs, hbs, rfl⟩ := collect_cons h
    have hn' := List.nodup_cons.mp hn
    rcases List.mem_cons.mp hm with e | e
    · subst e
      refine ⟨b, hb, ?_⟩
      rw [List.countP_append, collect_count_zero hbs (fun a ha => h0 a (List.mem_cons_of_mem _ ha)
        (fun e => hn'.1 (e ▸ ha)))]
      rfl
    · obtain ⟨b', hb', e'⟩ := ih hbs hn'.2 e (fun a ha => h0 a (List.mem_cons_of_mem _ ha))
      refine ⟨b', hb', ?_⟩
      rw [List.countP_append, h0 a (by simp) (fun e'' => hn'.1 (e'' ▸ e)) b hb, e', Nat.zero_add]

theorem collect_succeeds {α β : Type} {f : α → Except Err (List β)} {as : List α}
    (h : ∀ a ∈ as, ∃ b, f a = .ok b) : ∃ out, collect f as = .ok out := by
  induction as with
  | nil => exact ⟨_, rfl⟩
  | cons a as ih =>
    obtain ⟨b, hb⟩ := h a (by simp)
    obtain ⟨bs, hbs⟩ := ih (fun a ha => h a (List.mem_cons_of_mem _ ha))
    exact ⟨b ++ bs, by simp [collect, hb, hbs]⟩

theorem collect_map {α β γ : Type} (f : α → Except Err (List β)) (g : γ → α) (l : List γ) :
    collect f (l.map g) = collect (fun c => f (g c)) l := by
  induction l with
  | nil => rfl
  | cons a l ih => simp only [List.map_cons, collect, ih]

theorem collect_nil {α β : Type} {f : α → Except Err (List β)} {as : List α}
    (h : ∀ a ∈ as, f a = .ok []) : collect f as = .ok [] := by
  induction as with
  | nil => rfl
  | cons a as ih =>
    simp [collect, h a (by simp), ih (fun a ha => h a (List.mem_cons_of_mem _ ha))]

theorem collect_error {α β : Type} {f : α → Except Err (List β)} {e : Err} {as : List α}
    (h : ∀ a ∈ as, f a = .ok [] ∨ f a = .error e) (a0 : α) (hm : a0 ∈ as) (h0 : f a0 = .error e) :
    collect f as = .error e := by
  induction as with
  | nil => cases hm
  | cons a as ih =>
    rcases h a (by simp) with h1 | h1
    · rcases List.mem_cons.mp hm with e' | e'
      · subst e'; rw [h0] at h1; cases h1
      · simp [collect, h1, ih (fun a ha => h a (List.mem_cons_of_mem _ ha)) e']
    · simp [collect, h1]

/-! ### interpolate_step -/

theorem mem_cycleIndices {raw : List Row} {reg exclude : List Int} {c : Int} :
    c ∈ cycleIndices raw reg exclude ↔ (∃ q ∈ raw, q.cycle = c) ∧ c ∈ reg ∧ c ∉ exclude := by
  unfold cycleIndices
  rw [mem_sortBy, List.mem_filter, mem_unique, List.mem_map]
  simp

theorem cycleIndices_sorted (raw : List Row) (reg exclude : List Int) :
    (cycleIndices raw reg exclude).Pairwise (· < ·) := by
  have h1 : (cycleIndices raw reg exclude).Pairwise (fun a b => decide (a ≤ b) = true) := by
    unfold cycleIndices
    apply pairwise_sortBy
    · intro a b c h1 h2; simp only [decide_eq_true_eq] at *; omega
    · intro a b; simp only [Bool.or_eq_true, decide_eq_true_eq]; omega
  have h2 : (cycleIndices raw reg exclude).Nodup := by
    unfold cycleIndices
    rw [(sortBy_perm _ _).nodup_iff]
    exact (nodup_unique _).filter _
  refine (h1.and h2).imp ?_
  intro a b h
  simp only [decide_eq_true_eq] at h
  exact lt_of_le_of_ne h.1 h.2

theorem interpolateOneStep_mem {raw : List Row} {axis st : String} {v : Rat × Rat} {n : Nat} {c : Int}
    {g : List Row} {out : List OutRow} (h : interpolateOneStep raw axis st v n c g = .ok out) :
    ∀ r ∈ out, r.cycle = c ∧ r.stepType = st ∧ ∃ q ∈ g, q.step = some r.step := by
  unfold interpolateOneStep at h
  intro r hr
  by_cases hl : g.length < 2
  · rw [if_pos hl] at h; cases h; cases hr
  rw [if_neg hl] at h
  split at h
  · cases h
  split at h
  · cases h
  rename_i s l hs
  split at h
  · cases h
  cases h
  rw [List.mem_map] at hr
  obtain ⟨q, _, rfl⟩ := hr
  refine ⟨rfl, rfl, ?_⟩
  have : s ∈ g.filterMap Row.step := by rw [hs]; simp
  rw [List.mem_filterMap] at this
  exact this

theorem interpolateCycle_mem {raw : List Row} {indet : Bool} {axis st : String} {v : Rat × Rat} {n : Nat}
    {c : Int} {out : List OutRow} (h : interpolateCycle raw indet axis st v n c = .ok out) :
    ∀ r ∈ out, r.cycle = c ∧ r.stepType = st := by
  unfold interpolateCycle at h
  split at h
  · cases h
  intro r hr
  obtain ⟨g, _, b, hb, hrb⟩ := collect_mem h hr
  have := interpolateOneStep_mem hb r hrb
  exact ⟨this.1, this.2.1⟩

theorem iterateSteps_eq (indet chg : Bool) (rows : List Row) :
    iterateSteps indet (if chg then "charge" else "discharge") rows =
      .ok ((stepKeys (filterGroups (stepIsChgState chg indet) rows)).map (stepRows rows)) := by
  rw [← iterate_eq]
  cases chg <;> rfl

theorem iterateSteps_ok (indet chg : Bool) (rows : List Row) :
    ∃ steps, iterateSteps indet (if chg then "charge" else "discharge") rows = .ok steps :=
  ⟨_, iterateSteps_eq indet chg rows⟩

theorem iterateSteps_key {indet chg : Bool} {rows : List Row} {steps : List (List Row)}
    (h : iterateSteps indet (if chg then "charge" else "discharge") rows = .ok steps) :
    ∀ g ∈ steps, ∃ k, ∀ r ∈ g, r.step = some k := by
  rw [iterateSteps_eq] at h
  cases h
  intro g hg
  rw [List.mem_map] at hg
  obtain ⟨k, _, rfl⟩ := hg
  refine ⟨k, ?_⟩
  intro r hr
  unfold stepRows at hr
  rw [List.mem_filter] at hr
  simpa using hr.2

theorem iterateSteps_mem {indet chg : Bool} {rows : List Row} {steps : List (List Row)}
    (h : iterateSteps indet (if chg then "charge" else "discharge") rows = .ok steps) :
    ∀ g ∈ steps, ∀ r ∈ g, r ∈ rows := by
  rw [iterateSteps_eq] at h
  cases h
  intro g hg r hr
  rw [List.mem_map] at hg
  obtain ⟨k, _, rfl⟩ := hg
  exact (List.mem_filter.mp hr).1

theorem length_grid (a b : Rat) (n : Nat) (h : a ≠ b) :
    (unique (sortBy (fun p q => decide (p ≤ q)) (linspace a b n))).length = n := by
  rcases lt_or_gt_of_ne h with h | h
  · rw [sort_of_strict (linspace_strict a b n h), length_linspace]
  · rw [sort_of_strict_desc (linspace_strict_desc a b n h), List.length_reverse, length_linspace]

theorem interpolateOneStep_count {raw : List Row} {axis st : String} {v : Rat × Rat} {n : Nat} {c s : Int}
    {g : List Row} {out : List OutRow} (h : interpolateOneStep raw axis st v n c g = .ok out)
    (hg : ∀ r ∈ g, r.step = some s) (hr : ∀ r, axisRange raw g axis v = .ok r → r.1 ≠ r.2) :
    out.countP (fun r => decide (r.cycle = c) && decide (r.step = s)) = if 2 ≤ g.length then n else 0 := by
  have hm := interpolateOneStep_mem h
  have hall : ∀ r ∈ out, (decide (r.cycle = c) && decide (r.step = s)) = true := by
    intro r hr
    obtain ⟨h1, _, q, hq, hs⟩ := hm r hr
    have := hg q hq
    rw [hs] at this
    simp only [Option.some.injEq] at this
    simp [h1, this]
  rw [List.countP_eq_length.mpr hall]
  unfold interpolateOneStep at h
  by_cases hl : g.length < 2
  · rw [if_pos hl] at h; cases h
    rw [if_neg (by omega)]; rfl
  rw [if_neg hl] at h
  rw [if_pos (by omega)]
  split at h
  · cases h
  rename_i range hrange
  split at h
  · cases h
  split at h
  · cases h
  split at h
  · cases h
  rename_i rows hrows
  cases h
  unfold interpolateDf at hrows
  simp only [Except.ok.injEq] at hrows
  subst hrows
  rw [List.length_map, List.length_map, length_grid _ _ _ (hr _ hrange)]

theorem interpolateCycle_count {raw : List Row} {indet : Bool} (chg : Bool) {axis : String} {v : Rat × Rat}
    {n : Nat} (hn : 2 ≤ n) {c : Int} {out : List OutRow}
    (h : interpolateCycle raw indet axis (if chg then "charge" else "discharge") v n c = .ok out) (s : Int)
    (hr : ∀ r, axisRange raw (stepRows (raw.filter (fun r => r.cycle = c)) s) axis v = .ok r → r.1 ≠ r.2) :
    out.countP (fun r => decide (r.cycle = c) && decide (r.step = s)) =
      if stepIsChgState chg indet (stepRows (raw.filter (fun r => r.cycle = c)) s) = true ∧
        2 ≤ (stepRows (raw.filter (fun r => r.cycle = c)) s).length then n else 0 := by
  unfold interpolateCycle at h
  rw [iterateSteps_eq] at h
  simp only at h
  rw [collect_map] at h
  have hkey : ∀ k, ∀ r ∈ stepRows (raw.filter (fun r => r.cycle = c)) k, r.step = some k := by
    intro k r hr
    unfold stepRows at hr
    rw [List.mem_filter] at hr
    simpa using hr.2
  have hzero : ∀ k, k ≠ s → ∀ b, interpolateOneStep raw axis (if chg then "charge" else "discharge") v n c
      (stepRows (raw.filter (fun r => r.cycle = c)) k) = .ok b →
      b.countP (fun r => decide (r.cycle = c) && decide (r.step = s)) = 0 := by
    intro k hks b hb
    rw [List.countP_eq_zero]
    intro r hr
    obtain ⟨_, _, q, hq, hs⟩ := interpolateOneStep_mem hb r hr
    have := hkey k q hq
    rw [hs] at this
    simp only [Option.some.injEq] at this
    simp [this, hks]
  by_cases hs : s ∈ stepKeys (filterGroups (stepIsChgState chg indet) (raw.filter (fun r => r.cycle = c)))
  · obtain ⟨b, hb, e⟩ := collect_countP (p := fun r => decide (r.cycle = c) && decide (r.step = s)) h
      (nodup_groupKeys _) s hs (fun a _ hne b hb => hzero a hne b hb)
    rw [e, interpolateOneStep_count hb (hkey s) hr]
    have := (mem_stepKeys_filterGroups.mp hs).2
    simp [this]
  · rw [collect_count_zero h (fun a ha b hb => hzero a (fun e => hs (e ▸ ha)) b hb)]
    rw [if_neg]
    rintro ⟨h1, h2⟩
    apply hs
    rw [mem_stepKeys_filterGroups]
    refine ⟨?_, h1⟩
    match hg : stepRows (raw.filter (fun r => r.cycle = c)) s with
    | [] => rw [hg] at h2; simp at h2
    | r :: _ =>
      have hr : r ∈ stepRows (raw.filter (fun r => r.cycle = c)) s := by rw [hg]; simp
      refine ⟨r, ?_, hkey s r hr⟩
      unfold stepRows at hr
      exact (List.mem_filter.mp hr).1

end Beep.Interp
