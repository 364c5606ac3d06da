import Verif.Spec.Rounding
import Verif.Model.Pandas
import Mathlib.Algebra.Order.Floor.Ring
import Mathlib.Data.Rat.Floor
/-
The rounding of the model is rounding half to even.
-/
namespace Beep.Proof
open Beep Beep.Pandas Beep.Spec

theorem roundEven_rounds (x : Rat) : Rounds x (roundEven x) := by
  have h1 : ((x.floor : Int) : Rat) ≤ x := Int.floor_le x
  have h2 : x < (x.floor : Int) + 1 := Int.lt_floor_add_one x
  unfold roundEven Rounds
  simp only
  split
  · rename_i h
    have : |x - (x.floor : Int)| = x - (x.floor : Int) := abs_of_nonneg (by linarith)
    rw [this]
    exact ⟨h.le, fun h' => absurd h' (ne_of_lt h)⟩
  · rename_i h
    split
    · rename_i h'
      have : |x - ((x.floor + 1 : Int) : Rat)| = (x.floor : Int) + 1 - x := by
        push_cast
        rw [abs_of_nonpos (by linarith)]; ring
      rw [this]
      exact ⟨by linarith, fun h'' => by linarith⟩
    · rename_i h'
      have hx : x - (x.floor : Int) = 1 / 2 := by linarith
      split
      · rename_i he
        rw [hx, abs_of_nonneg (by norm_num)]
        exact ⟨le_refl _, fun _ => he⟩
      · rename_i he
        refine ⟨?_, fun _ => by omega⟩
        push_cast
        rw [show x - ((x.floor : Int) + 1 : Rat) = -(1 / 2) by linarith, abs_neg, abs_of_nonneg (by norm_num)]

theorem rounds_iff (x : Rat) (n : Int) : Rounds x n ↔ n = roundEven x := by
  constructor
  · intro h
    have h' := roundEven_rounds x
    generalize roundEven x = m at h'
    obtain ⟨a1, a2⟩ := h
    obtain ⟨b1, b2⟩ := h'
    have c1 := abs_le.mp a1
    have c2 := abs_le.mp b1
    have d1 : ((n - m : Int) : Rat) ≤ 1 := by push_cast; linarith [c1.1, c2.2]
    have d2 : (-1 : Rat) ≤ ((n - m : Int) : Rat) := by push_cast; linarith [c1.2, c2.1]
    have e1 : n - m ≤ 1 := by exact_mod_cast d1
    have e2 : -1 ≤ n - m := by exact_mod_cast d2
    by_contra hne
    rcases (by omega : n = m + 1 ∨ n = m - 1) with e | e
    · subst e
      push_cast at c1 a1 a2
      have hx : x - m = 1 / 2 := by linarith [c1.1, c2.2]
      have p1 := b2 (by rw [hx]; norm_num)
      have p2 := a2 (by rw [show x - ((m : Rat) + 1) = -(1 / 2) by linarith, abs_neg]; norm_num)
      omega
    · subst e
      push_cast at c1 a1 a2
      have hx : x - m = -(1 / 2) := by linarith [c1.2, c2.1]
      have p1 := b2 (by rw [hx, abs_neg]; norm_num)
      have p2 := a2 (by rw [show x - ((m : Rat) - 1) = 1 / 2 by linarith]; norm_num)
      omega
  · rintro rfl; exact roundEven_rounds x

theorem twoDecimals_iff (x y : Rat) : TwoDecimals x y ↔ y = round2 x := by
  unfold TwoDecimals round2
  constructor
  · rintro ⟨n, h, rfl⟩; rw [(rounds_iff _ _).mp h]
  · rintro rfl; exact ⟨_, roundEven_rounds _, rfl⟩

end Beep.Proof
