import Verif.Props.Interp
/-
C154: resampling does not depend on the order of the rows or on the units, and keeps the order of
the values.
-/
namespace Beep.Props.InterpSym
open Beep Beep.Pandas Beep.Interp Beep.Spec.Interp

/-- strictly sorted points with the same members are equal -/
theorem points_ext {a b : List (Rat × Rat)} (ha : a.Pairwise (fun p q => p.1 < q.1))
    (hb : b.Pairwise (fun p q => p.1 < q.1)) (h : ∀ p, p ∈ a ↔ p ∈ b) : a = b := by
  have hp : a.Perm b := by
    rw [List.perm_ext_iff_of_nodup (ha.imp (fun h e => by subst e; exact lt_irrefl _ h))
      (hb.imp (fun h e => by subst e; exact lt_irrefl _ h))]
    exact h
  exact hp.eq_of_pairwise (fun x y _ _ h1 h2 => absurd h1 (lt_asymm h2)) ha hb

/-- C154, order: resampling onto a given range does not depend on the order of the rows. -/
theorem C154_order (t t' : Table) (hp : t.Perm t') (hd : DistinctAxis t) (m : Nat) (r : Rat × Rat) (n : Nat) :
    interpolateDf t' m (some r) n = interpolateDf t m (some r) n := by
  have hd' : DistinctAxis t' := (hp.map Prod.fst).nodup_iff.mp hd
  have hk : ∀ j, known t' j = known t j := by
    intro j
    refine points_ext (known_sorted t' j hd') (known_sorted t j hd) (fun p => ?_)
    rw [show p = (p.1, p.2) from rfl, mem_known, mem_known]
    unfold Measured
    simp only [hp.mem_iff]
  unfold interpolateDf
  simp only [valueAt_distinct hd, valueAt_distinct hd', hk]

theorem interpFrom_affine (k b : Rat) (rest : List (Rat × Rat)) (x0 y0 x : Rat) :
    interpFrom x0 (k * y0 + b) (rest.map (fun p => (p.1, k * p.2 + b))) x = k * interpFrom x0 y0 rest x + b := by
  induction rest generalizing x0 y0 with
  | nil => rfl
  | cons p rest ih =>
    simp only [List.map_cons, interpFrom]
    split
    · ring
    · exact ih p.1 p.2

theorem interpAt_affine (k b : Rat) (pts : List (Rat × Rat)) (x : Rat) :
    interpAt (pts.map (fun p => (p.1, k * p.2 + b))) x = (interpAt pts x).map (fun y => k * y + b) := by
  cases pts with
  | nil => rfl
  | cons p rest =>
    simp only [List.map_cons, interpAt]
    split
    · rfl
    · rw [interpFrom_affine]; rfl

/-- C154, unit of a column: if the values of a column are recorded in another unit or from another
zero, the resampled values are those of the first table in the new unit. -/
theorem C154_unit (t t' : Table) (hd : DistinctAxis t) (hd' : DistinctAxis t') (j m : Nat) (hj : j < m) (k b : Rat)
    (hu : ∀ x y', Measured t' j x y' ↔ ∃ y, Measured t j x y ∧ y' = k * y + b)
    (r : Rat × Rat) (n : Nat) (out out')
    (h : interpolateDf t m (some r) n = .ok out) (h' : interpolateDf t' m (some r) n = .ok out')
    (x : Rat) (vals vals') (hx : (x, vals) ∈ out) (hx' : (x, vals') ∈ out') :
    (∀ v, vals[j]? = some (some v) → vals'[j]? = some (some (k * v + b))) ∧
    (vals[j]? = some none → vals'[j]? = some none) := by
  have hk : known t' j = (known t j).map (fun p => (p.1, k * p.2 + b)) := by
    refine points_ext (known_sorted t' j hd') ?_ (fun p => ?_)
    · rw [List.pairwise_map]
      exact known_sorted t j hd
    · rw [show p = (p.1, p.2) from rfl, mem_known, hu, List.mem_map]
      constructor
      · rintro ⟨y, hy, e⟩
        exact ⟨(p.1, y), (mem_known ..).mpr hy, by rw [e]⟩
      · rintro ⟨q, hq, e⟩
        rw [Prod.mk.injEq] at e
        refine ⟨q.2, ?_, e.2.symm⟩
        rw [← e.1]
        exact (mem_known ..).mp hq
  rw [Props.Interp.out_value t m r n out h x vals hx j hj, Props.Interp.out_value t' m r n out' h' x vals' hx' j hj,
    valueAt_distinct hd, valueAt_distinct hd', hk,
    interpAt_affine]
  constructor
  · intro v hv
    simp only [Option.some.injEq] at hv
    rw [hv]; rfl
  · intro hv
    simp only [Option.some.injEq] at hv
    rw [hv]; rfl

theorem interpFrom_axis (a c : Rat) (ha : 0 < a) (rest : List (Rat × Rat)) (x0 y0 x : Rat) :
    interpFrom (a * x0 + c) y0 (rest.map (fun p => (a * p.1 + c, p.2))) (a * x + c) = interpFrom x0 y0 rest x := by
  induction rest generalizing x0 y0 with
  | nil => rfl
  | cons p rest ih =>
    simp only [List.map_cons, interpFrom]
    have hlt : a * x + c < a * p.1 + c ↔ x < p.1 := by
      rw [add_lt_add_iff_right, mul_lt_mul_iff_right₀ ha]
    by_cases h : x < p.1
    · rw [if_pos (hlt.mpr h), if_pos h]
      have : (a * x + c - (a * x0 + c)) / (a * p.1 + c - (a * x0 + c)) = (x - x0) / (p.1 - x0) := by
        rw [show a * x + c - (a * x0 + c) = a * (x - x0) by ring,
          show a * p.1 + c - (a * x0 + c) = a * (p.1 - x0) by ring, mul_div_mul_left _ _ (ne_of_gt ha)]
      rw [this]
    · rw [if_neg (fun g => h (hlt.mp g)), if_neg h]
      exact ih p.1 p.2

theorem interpAt_axis (a c : Rat) (ha : 0 < a) (pts : List (Rat × Rat)) (x : Rat) :
    interpAt (pts.map (fun p => (a * p.1 + c, p.2))) (a * x + c) = interpAt pts x := by
  cases pts with
  | nil => rfl
  | cons p rest =>
    simp only [List.map_cons, interpAt]
    have hlt : a * x + c < a * p.1 + c ↔ x < p.1 := by
      rw [add_lt_add_iff_right, mul_lt_mul_iff_right₀ ha]
    by_cases h : x < p.1
    · rw [if_pos (hlt.mpr h), if_pos h]
    · rw [if_neg (fun g => h (hlt.mp g)), if_neg h, interpFrom_axis a c ha]

theorem linspace_axis (a c A B : Rat) (n : Nat) :
    linspace (a * A + c) (a * B + c) n = (linspace A B n).map (fun x => a * x + c) := by
  match n with
  | 0 => rfl
  | 1 => rfl
  | n + 2 =>
    simp only [linspace, List.map_map]
    apply List.map_congr_left
    intro i _
    simp only [Function.comp]
    ring

/-- C154, unit of the axis: if the axis is recorded in another unit (`a > 0`) or from another zero
and the range is given accordingly, the result has the same values at the grid points in the new
unit. -/
theorem C154_axis (t t' : Table) (hd : DistinctAxis t) (hd' : DistinctAxis t') (m : Nat) (a c : Rat) (ha : 0 < a)
    (hu : ∀ j x' y, Measured t' j x' y ↔ ∃ x, Measured t j x y ∧ x' = a * x + c)
    (A B : Rat) (hAB : A < B) (n : Nat) (out)
    (h : interpolateDf t m (some (A, B)) n = .ok out) :
    interpolateDf t' m (some (a * A + c, a * B + c)) n = .ok (out.map (fun o => (a * o.1 + c, o.2))) := by
  have hk : ∀ j, known t' j = (known t j).map (fun p => (a * p.1 + c, p.2)) := by
    intro j
    refine points_ext (known_sorted t' j hd') ?_ (fun p => ?_)
    · rw [List.pairwise_map]
      exact (known_sorted t j hd).imp (fun {p q} hpq => by
        simp only [add_lt_add_iff_right]
        exact mul_lt_mul_of_pos_left hpq ha)
    · rw [show p = (p.1, p.2) from rfl, mem_known, hu, List.mem_map]
      constructor
      · rintro ⟨y, hy, e⟩
        exact ⟨(y, p.2), (mem_known ..).mpr hy, by rw [e]⟩
      · rintro ⟨q, hq, e⟩
        rw [Prod.mk.injEq] at e
        refine ⟨q.1, ?_, e.1.symm⟩
        rw [← e.2]
        exact (mem_known ..).mp hq
  have hAB' : a * A + c < a * B + c := by
    rw [add_lt_add_iff_right]; exact mul_lt_mul_of_pos_left hAB ha
  unfold interpolateDf at h ⊢
  simp only [Except.ok.injEq] at h ⊢
  rw [sort_of_strict (linspace_strict A B n hAB)] at h
  rw [sort_of_strict (linspace_strict _ _ n hAB'), linspace_axis, ← h, List.map_map, List.map_map]
  apply List.map_congr_left
  intro x _
  simp only [Function.comp, valueAt_distinct hd, valueAt_distinct hd', hk, interpAt_axis a c ha]

theorem interpFrom_ge (rest : List (Rat × Rat)) (x0 y0 x : Rat)
    (hs : ((x0, y0) :: rest).Pairwise (fun p q => p.1 < q.1 ∧ p.2 ≤ q.2)) (hx : x0 ≤ x) :
    y0 ≤ interpFrom x0 y0 rest x := by
  induction rest generalizing x0 y0 with
  | nil => exact le_refl _
  | cons p rest ih =>
    rw [List.pairwise_cons] at hs
    obtain ⟨h1, h2⟩ := hs.1 p (by simp)
    simp only at h1 h2
    simp only [interpFrom]
    by_cases h : x < p.1
    · rw [if_pos h]
      have : 0 ≤ (p.2 - y0) * ((x - x0) / (p.1 - x0)) :=
        mul_nonneg (sub_nonneg.mpr h2) (div_nonneg (sub_nonneg.mpr hx) (sub_nonneg.mpr (le_of_lt h1)))
      linarith
    · rw [if_neg h]
      exact le_trans h2 (ih p.1 p.2 hs.2 (not_lt.mp h))

theorem interpFrom_mono (rest : List (Rat × Rat)) (x0 y0 x x' : Rat)
    (hs : ((x0, y0) :: rest).Pairwise (fun p q => p.1 < q.1 ∧ p.2 ≤ q.2)) (hx : x0 ≤ x) (hxx : x ≤ x') :
    interpFrom x0 y0 rest x ≤ interpFrom x0 y0 rest x' := by
  induction rest generalizing x0 y0 with
  | nil => exact le_refl _
  | cons p rest ih =>
    rw [List.pairwise_cons] at hs
    obtain ⟨h1, h2⟩ := hs.1 p (by simp)
    simp only at h1 h2
    have hpos : 0 < p.1 - x0 := sub_pos.mpr h1
    simp only [interpFrom]
    by_cases h' : x' < p.1
    · rw [if_pos (lt_of_le_of_lt hxx h'), if_pos h']
      have := mul_le_mul_of_nonneg_left (div_le_div_of_nonneg_right (sub_le_sub_right hxx x0) (le_of_lt hpos))
        (sub_nonneg.mpr h2)
      linarith
    · rw [if_neg h']
      by_cases h : x < p.1
      · rw [if_pos h]
        have h3 : (x - x0) / (p.1 - x0) ≤ 1 := by
          rw [div_le_one hpos]; linarith
        have h4 := mul_le_mul_of_nonneg_left h3 (sub_nonneg.mpr h2)
        have h5 := interpFrom_ge rest p.1 p.2 x' hs.2 (not_lt.mp h')
        linarith
      · rw [if_neg h]
        exact ih p.1 p.2 hs.2 (not_lt.mp h)

/-- C154, order of the values: if a column does not decrease along the axis, neither do its resampled
values. -/
theorem C154_monotone (t : Table) (hd : DistinctAxis t) (m : Nat) (r : Rat × Rat) (n : Nat) (out)
    (h : interpolateDf t m (some r) n = .ok out) (j : Nat) (hj : j < m)
    (hm : ∀ p y q z, Measured t j p y → Measured t j q z → p ≤ q → y ≤ z)
    (x x' : Rat) (vals vals') (hx : (x, vals) ∈ out) (hx' : (x', vals') ∈ out) (hxx : x ≤ x')
    (v v' : Rat) (hv : vals[j]? = some (some v)) (hv' : vals'[j]? = some (some v')) : v ≤ v' := by
  rw [Props.Interp.out_value t m r n out h x vals hx j hj, valueAt_distinct hd] at hv
  rw [Props.Interp.out_value t m r n out h x' vals' hx' j hj, valueAt_distinct hd] at hv'
  have hs := known_sorted t j hd
  have hs2 : (known t j).Pairwise (fun p q => p.1 < q.1 ∧ p.2 ≤ q.2) := by
    refine List.Pairwise.imp_of_mem ?_ hs
    intro p q hp hq hlt
    exact ⟨hlt, hm p.1 p.2 q.1 q.2 ((mem_known ..).mp hp) ((mem_known ..).mp hq) (le_of_lt hlt)⟩
  match hk : known t j with
  | [] => rw [hk] at hv; cases hv
  | (x0, y0) :: rest =>
    rw [hk] at hv hv' hs2
    simp only [interpAt] at hv hv'
    split at hv
    · cases hv
    rename_i h0
    split at hv'
    · cases hv'
    simp only [Option.some.injEq] at hv hv'
    rw [← hv, ← hv']
    exact interpFrom_mono rest x0 y0 x x' hs2 (not_lt.mp h0) hxx

/-- a table of voltage and capacity along time, in hours and in seconds, in another row order -/
def exHours : Table := [(0, [some 3]), (1, [some (7/2)]), (2, [some 4])]
def exSeconds : Table := [(7200, [some 4000]), (0, [some 3000]), (3600, [some 3500])]

/-- non-vacuity: the two tables are related by the units, and resample to the same curve -/
example : interpolateDf exHours 1 (some (0, 2)) 5 = .ok [(0, [some 3]), (1/2, [some (13/4)]), (1, [some (7/2)]),
      (3/2, [some (15/4)]), (2, [some 4])] ∧
    interpolateDf exSeconds 1 (some (0, 7200)) 5 = .ok [(0, [some 3000]), (1800, [some 3250]), (3600, [some 3500]),
      (5400, [some 3750]), (7200, [some 4000])] := by
  decide +kernel

example : DistinctAxis exHours ∧ DistinctAxis exSeconds := by
  unfold DistinctAxis; decide +kernel

example (p y q z : Rat) (h1 : Measured exHours 0 p y) (h2 : Measured exHours 0 q z) (hpq : p ≤ q) : y ≤ z := by
  obtain ⟨a, ha, ea⟩ := h1
  obtain ⟨b, hb, eb⟩ := h2
  simp only [exHours, List.mem_cons, Prod.mk.injEq, List.not_mem_nil, or_false] at ha hb
  rcases ha with ⟨rfl, rfl⟩ | ⟨rfl, rfl⟩ | ⟨rfl, rfl⟩ <;> rcases hb with ⟨rfl, rfl⟩ | ⟨rfl, rfl⟩ | ⟨rfl, rfl⟩ <;>
    cases ea <;> cases eb <;> first | (norm_num; done) | (exfalso; revert hpq; norm_num; done)

end Beep.Props.InterpSym
