import Verif.Props.Interp
/-
C168: resampling of tables in which several rows share an axis value.
-/
namespace Beep.Props.InterpTies
open Beep Beep.Pandas Beep.Interp Beep.Spec.Interp

/-- C168, origin of a value: whatever the table, a value in the result is a reading at that very point, lies on the
straight line between two neighbouring readings around the point, or repeats a reading of the last point of all. -/
theorem C168_origin (t : Table) (m : Nat) (r : Rat × Rat) (n : Nat) (out)
    (h : interpolateDf t m (some r) n = .ok out) (x : Rat) (vals) (hx : (x, vals) ∈ out) (j : Nat) (hj : j < m) (v : Rat)
    (hv : vals[j]? = some (some v)) :
    Measured t j x v ∨
    (∃ p yp q yq, Neighbours t j p yp q yq ∧ p ≤ x ∧ x < q ∧ v = yp + (yq - yp) * ((x - p) / (q - p))) ∨
    (∃ p, Measured t j p v ∧ p ≤ x ∧ ∀ z y, Measured t j z y → z ≤ p) := by
  have key : ∀ w, interpAt (known t j) x = some w →
      (∃ p yp q yq, Neighbours t j p yp q yq ∧ p ≤ x ∧ x < q ∧ w = yp + (yq - yp) * ((x - p) / (q - p))) ∨
      (∃ p, Measured t j p w ∧ p ≤ x ∧ ∀ z y, Measured t j z y → z ≤ p) := by
    intro w hw
    have hs := known_le t j
    have hm : ∀ z, z ∈ known t j → Measured t j z.1 z.2 := fun z hz => (mem_known t j z.1 z.2).mp hz
    have hm' : ∀ z y, Measured t j z y → (z, y) ∈ known t j := fun z y h => (mem_known t j z y).mpr h
    generalize known t j = l at hw hs hm hm'
    match l with
    | [] => cases hw
    | (x0, y0) :: rest =>
      simp only [interpAt] at hw
      split at hw
      · cases hw
      rename_i h0
      simp only [Option.some.injEq] at hw
      obtain ⟨p, hp, hpx, hc⟩ := interpFrom_cases x0 y0 rest hs x (not_lt.mp h0)
      rcases hc with ⟨ha, he⟩ | ⟨q, hq, hxq, ha, he⟩
      · right
        refine ⟨p.1, ?_, hpx, fun z y hz => ha _ (hm' z y hz)⟩
        rw [← hw, he]
        exact hm p hp
      · left
        refine ⟨p.1, p.2, q.1, q.2, ⟨hm p hp, hm q hq, lt_of_le_of_lt hpx hxq, fun z y hz => ha _ (hm' z y hz)⟩, hpx, hxq, ?_⟩
        rw [← hw, he]
  rw [Props.Interp.out_value t m r n out h x vals hx j hj, Option.some.injEq] at hv
  unfold valueAt at hv
  split at hv
  · exact .inr (key v hv)
  · rename_i row hf
    split at hv
    · rename_i y hy
      cases hv
      left
      have hx' : row.1 = x := by simpa using List.find?_some hf
      exact ⟨row.2, hx' ▸ List.mem_of_find?_eq_some hf, hy⟩
    · split at hv
      · exact .inr (key v hv)
      · cases hv

/-- C168, bound: no value leaves the range of the readings of its column. -/
theorem C168_bounded (t : Table) (m : Nat) (r : Rat × Rat) (n : Nat) (out)
    (h : interpolateDf t m (some r) n = .ok out) (x : Rat) (vals) (hx : (x, vals) ∈ out) (j : Nat) (hj : j < m) (v : Rat)
    (hv : vals[j]? = some (some v)) :
    ∃ xl yl xh yh, Measured t j xl yl ∧ Measured t j xh yh ∧ yl ≤ v ∧ v ≤ yh := by
  rcases C168_origin t m r n out h x vals hx j hj v hv with h | ⟨p, yp, q, yq, hn, h1, h2, rfl⟩ | ⟨p, hp, _, _⟩
  · exact ⟨x, v, x, v, h, h, le_refl _, le_refl _⟩
  · obtain ⟨hp, hq, hpq, _⟩ := hn
    have d : 0 < q - p := by linarith
    have t0 : 0 ≤ (x - p) / (q - p) := div_nonneg (by linarith) (le_of_lt d)
    have t1 : (x - p) / (q - p) ≤ 1 := by rw [div_le_one d]; linarith
    generalize (x - p) / (q - p) = s at t0 t1
    rcases le_total yp yq with hy | hy
    · refine ⟨p, yp, q, yq, hp, hq, ?_, ?_⟩
      · have := mul_nonneg (sub_nonneg.mpr hy) t0; linarith
      · have := mul_le_mul_of_nonneg_left t1 (sub_nonneg.mpr hy); linarith
    · refine ⟨q, yq, p, yp, hq, hp, ?_, ?_⟩
      · have := mul_le_mul_of_nonneg_left t1 (sub_nonneg.mpr hy); linarith
      · have := mul_nonneg (sub_nonneg.mpr hy) t0; linarith
  · exact ⟨p, v, p, v, hp, hp, le_refl _, le_refl _⟩

/-- C168, which row counts: of several rows at a grid point the first one decides, in every column it has a value for. -/
theorem C168_first (t : Table) (m : Nat) (r : Rat × Rat) (n : Nat) (out)
    (h : interpolateDf t m (some r) n = .ok out) (x : Rat) (vals) (hx : (x, vals) ∈ out) (j : Nat) (hj : j < m)
    (row : List (Option Rat)) (hf : FirstAt t x row) (y : Rat) (hy : row[j]? = some (some y)) :
    vals[j]? = some (some y) := by
  rw [Props.Interp.out_value t m r n out h x vals hx j hj]
  unfold valueAt
  rw [first_find hf]
  simp only [hy]

/-- C168, missing values: a value is missing exactly if there is no reading before the point, and none in the first row at
the point. -/
theorem C168_missing (t : Table) (m : Nat) (r : Rat × Rat) (n : Nat) (out)
    (h : interpolateDf t m (some r) n = .ok out) (x : Rat) (vals) (hx : (x, vals) ∈ out) (j : Nat) (hj : j < m) :
    vals[j]? = some none ↔ (∀ p y, Measured t j p y → x ≤ p) ∧ ∀ row, FirstAt t x row → ∀ y, row[j]? ≠ some (some y) := by
  rw [Props.Interp.out_value t m r n out h x vals hx j hj, Option.some.injEq]
  unfold valueAt
  cases hf : t.find? (fun r => decide (r.1 = x)) with
  | none =>
    have hno : ∀ row ∈ t, row.1 ≠ x := fun row hr => by simpa using List.find?_eq_none.mp hf row hr
    simp only
    rw [interpAt_none (known_le t j)]
    constructor
    · intro ha
      refine ⟨fun p y hp => le_of_lt (ha (p, y) ((mem_known ..).mpr hp)), ?_⟩
      rintro row ⟨a, b, rfl, _⟩
      exact absurd rfl (hno (x, row) (by simp))
    · rintro ⟨ha, _⟩ p hp
      obtain ⟨w, hw, hy⟩ := (mem_known t j p.1 p.2).mp hp
      exact lt_of_le_of_ne (ha p.1 p.2 ⟨w, hw, hy⟩) (fun e => hno _ hw e.symm)
  | some row =>
    have hfirst := find_first hf
    simp only
    split
    · rename_i y hy
      simp only [reduceCtorEq, false_iff, not_and, not_forall]
      exact fun _ => ⟨row.2, hfirst, y, fun hn => hn hy⟩
    · rename_i hno
      have hrow : ∀ row', FirstAt t x row' → ∀ y, row'[j]? ≠ some (some y) := by
        intro row' hr' y hy
        have := (first_find hr').symm.trans hf
        simp only [Option.some.injEq] at this
        exact hno y (by rw [← this]; exact hy)
      by_cases hlt : (known t j).any (fun p => decide (p.1 < x)) = true
      · rw [if_pos hlt, interpAt_none (known_le t j)]
        obtain ⟨p, hp, hpx⟩ := List.any_eq_true.mp hlt
        rw [decide_eq_true_eq] at hpx
        constructor
        · intro ha; exact absurd (ha p hp) (not_lt.mpr (le_of_lt hpx))
        · rintro ⟨ha, _⟩
          exact absurd (ha p.1 p.2 ((mem_known ..).mp hp)) (not_le.mpr hpx)
      · rw [if_neg hlt]
        refine ⟨fun _ => ⟨fun p y hp => ?_, hrow⟩, fun _ => rfl⟩
        by_contra hn
        exact hlt (List.any_eq_true.mpr ⟨(p, y), (mem_known ..).mpr hp, by simpa using hn⟩)

/-- C168 is violated: if the first of the rows at a grid point has a gap and nothing was read before, the reading of the
next row at the same point is lost and the value is missing. -/
theorem C168_lost_violated (t : Table) (m : Nat) (r : Rat × Rat) (n : Nat) (out)
    (h : interpolateDf t m (some r) n = .ok out) (x : Rat) (vals) (hx : (x, vals) ∈ out) (j : Nat) (hj : j < m)
    (row : List (Option Rat)) (hf : FirstAt t x row) (hgap : row[j]? = some none)
    (hleast : ∀ p y, Measured t j p y → x ≤ p) : vals[j]? = some none := by
  rw [C168_missing t m r n out h x vals hx j hj]
  refine ⟨hleast, fun row' hr' y hy => ?_⟩
  have := (first_find hr').symm.trans (first_find hf)
  simp only [Option.some.injEq, Prod.mk.injEq, true_and] at this
  rw [this, hgap] at hy
  cases hy

/-- C168 is violated: with repeated axis values the result depends on the order of the rows, for any two readings that
differ. -/
theorem C168_order_violated (x y z : Rat) (hyz : y ≠ z) :
    ∃ t t' : Table, t.Perm t' ∧ (∀ j p v, Measured t j p v ↔ Measured t' j p v) ∧
      interpolateDf t 1 (some (x, x)) 1 ≠ interpolateDf t' 1 (some (x, x)) 1 := by
  refine ⟨[(x, [some y]), (x, [some z])], [(x, [some z]), (x, [some y])], List.Perm.swap .., ?_, ?_⟩
  · intro j p v
    unfold Measured
    simp only [List.mem_cons, List.not_mem_nil, or_false]
    constructor <;> rintro ⟨w, h | h, e⟩
    · exact ⟨w, .inr h, e⟩
    · exact ⟨w, .inl h, e⟩
    · exact ⟨w, .inr h, e⟩
    · exact ⟨w, .inl h, e⟩
  · intro h
    have e1 : ∀ a b : Rat, interpolateDf [(x, [some a]), (x, [some b])] 1 (some (x, x)) 1 = .ok [(x, [some a])] := by
      intro a b
      unfold interpolateDf
      simp only [linspace, sortBy, List.foldr, unique]
      simp [valueAt, insertBy, unique]
    rw [e1, e1] at h
    simp only [Except.ok.injEq, List.cons.injEq, Prod.mk.injEq, Option.some.injEq, true_and, and_true] at h
    exact hyz h

/-- two rows at 1 and two at 2, with gaps: the first row at 2 counts, and the reading 7 at 1 is lost -/
example : interpolateDf [(1, [some 10, none]), (1, [some 20, some 7]), (2, [some 30, none]), (2, [some 50, some 8])] 2
    (some (1, 2)) 3 = .ok [(1, [some 10, none]), (3 / 2, [some 25, some (15 / 2)]), (2, [some 30, some 8])] := by decide +kernel

example : FirstAt [(1, [some 10, none]), (1, [some 20, some 7]), (2, [some 30, none]), (2, [some 50, some 8])] 1 [some 10, none] :=
  ⟨[], _, rfl, by simp⟩

end Beep.Props.InterpTies
