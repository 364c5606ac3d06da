import Mathlib.Data.Rat.Floor
import Mathlib.Tactic.Positivity
import Mathlib.Tactic.NormNum
import Mathlib.Algebra.Order.Field.Power
import Verif.Proof.Base
import Verif.Spec.Casts
/-
Lemmas for the casts of raw columns.
-/
namespace Beep.Casts
open Beep Beep.Spec.Casts

theorem pow2_eq (e : Int) : pow2 e = (2 : Rat) ^ e := by
  cases e with
  | ofNat n => simp [pow2]
  | negSucc n => simp [pow2, zpow_negSucc]

theorem mag_eq (x : Rat) : mag x = |x| := by
  unfold mag
  split
  · next h => rw [abs_of_nonneg h]
  · next h => rw [abs_of_neg (by linarith)]

theorem two_zpow_pos (e : Int) : (0 : Rat) < 2 ^ e := zpow_pos (by norm_num) e

theorem two_zpow_le {a b : Int} (h : a ≤ b) : (2 : Rat) ^ a ≤ 2 ^ b := zpow_le_zpow_right₀ (by norm_num) h

theorem two_zpow_add (a b : Int) : (2 : Rat) ^ (a + b) = 2 ^ a * 2 ^ b := zpow_add₀ (by norm_num) a b

theorem abs_rat (x : Rat) : |x| = (x.num.natAbs : Rat) / (x.den : Rat) := by
  have h : |x| = |(x.num : Rat) / (x.den : Rat)| := by rw [Rat.num_div_den]
  rw [h, abs_div, abs_of_nonneg (show (0 : Rat) ≤ (x.den : Rat) by positivity)]
  congr 1
  rw [Nat.cast_natAbs]; simp

theorem expo_spec (x : Rat) (hx : x ≠ 0) : (2 : Rat) ^ expo x ≤ |x| ∧ |x| < 2 ^ (expo x + 1) := by
  have hN : x.num.natAbs ≠ 0 := by simpa using hx
  set N := x.num.natAbs with hNd
  set D := x.den with hDd
  have hD : D ≠ 0 := x.den_nz
  have hDp : (0 : Rat) < D := by positivity
  have n1 : (2 : Rat) ^ (Nat.log2 N) ≤ N := by exact_mod_cast Nat.log2_self_le hN
  have n2 : (N : Rat) < 2 ^ (Nat.log2 N + 1) := by exact_mod_cast Nat.lt_log2_self
  have d1 : (2 : Rat) ^ (Nat.log2 D) ≤ D := by exact_mod_cast Nat.log2_self_le hD
  have d2 : (D : Rat) < 2 ^ (Nat.log2 D + 1) := by exact_mod_cast Nat.lt_log2_self
  have hx' := abs_rat x
  have hup : |x| < 2 ^ ((Nat.log2 N : Int) - Nat.log2 D + 1) := by
    rw [hx', div_lt_iff₀ hDp]
    have : (2 : Rat) ^ ((Nat.log2 N : Int) - Nat.log2 D + 1) * 2 ^ (Nat.log2 D) = 2 ^ (Nat.log2 N + 1) := by
      rw [← zpow_natCast, ← zpow_natCast, ← two_zpow_add]; congr 1; push_cast; ring
    nlinarith [two_zpow_pos ((Nat.log2 N : Int) - Nat.log2 D + 1)]
  have hlo : (2 : Rat) ^ ((Nat.log2 N : Int) - Nat.log2 D - 1) ≤ |x| := by
    rw [hx', le_div_iff₀ hDp]
    have : (2 : Rat) ^ ((Nat.log2 N : Int) - Nat.log2 D - 1) * 2 ^ (Nat.log2 D + 1) = 2 ^ (Nat.log2 N) := by
      rw [← zpow_natCast, ← zpow_natCast, ← two_zpow_add]; congr 1; push_cast; ring
    nlinarith [two_zpow_pos ((Nat.log2 N : Int) - Nat.log2 D - 1)]
  simp only [expo, pow2_eq, mag_eq]
  rw [← hNd, ← hDd]
  split
  · next h => exact ⟨h, hup⟩
  · next h => exact ⟨hlo, by rw [sub_add_cancel]; exact not_le.mp h⟩

theorem rne_near (x : Rat) : |x - (rne x : Rat)| ≤ 1 / 2 := by
  have h1 := Rat.floor_le x
  have h2 : x < (x.floor : Rat) + 1 := by have := Rat.lt_floor_add_one x; push_cast at this; exact this
  rw [abs_le]
  simp only [rne]
  split_ifs with a b c <;> push_cast <;> constructor <;> linarith

theorem rne_even (x : Rat) (h : |x - (rne x : Rat)| = 1 / 2) : rne x % 2 = 0 := by
  have h1 := Rat.floor_le x
  have h2 : x < (x.floor : Rat) + 1 := by have := Rat.lt_floor_add_one x; push_cast at this; exact this
  revert h
  simp only [rne]
  split_ifs with a b c
  · intro h; rw [abs_of_nonneg (by linarith)] at h; linarith
  · intro h; push_cast at h; rw [abs_of_nonpos (by linarith)] at h; linarith
  · intro _; exact c
  · intro _; omega

theorem rne_nearest (x : Rat) (n : Int) : |x - (rne x : Rat)| ≤ |x - (n : Rat)| := by
  have h := rne_near x
  by_cases hn : n = rne x
  · rw [hn]
  · have : (1 : Rat) ≤ |(n : Rat) - rne x| := by
      have : (1 : Int) ≤ |n - rne x| := Int.one_le_abs (by omega)
      exact_mod_cast this
    have t : |(n : Rat) - rne x| ≤ |x - (rne x : Rat)| + |x - (n : Rat)| := by
      have := abs_sub_le (n : Rat) x (rne x); rw [abs_sub_comm (n : Rat) x] at this; linarith
    linarith

theorem rne_tie (x : Rat) (n : Int) (hn : n ≠ rne x) (h : |x - (n : Rat)| = |x - (rne x : Rat)|) : rne x % 2 = 0 := by
  apply rne_even
  have h0 := rne_near x
  have : (1 : Rat) ≤ |(n : Rat) - rne x| := by
    have : (1 : Int) ≤ |n - rne x| := Int.one_le_abs (by omega)
    exact_mod_cast this
  have t : |(n : Rat) - rne x| ≤ |x - (rne x : Rat)| + |x - (n : Rat)| := by
    have := abs_sub_le (n : Rat) x (rne x); rw [abs_sub_comm (n : Rat) x] at this; linarith
  linarith

/-- the step of the format at a number -/
def ulpOf (m : Fmt) (x : Rat) : Rat := (2 : Rat) ^ (max (expo x) m.emin - ((m.bits : Int) - 1))
/-- the rounded number -/
def rounded (m : Fmt) (x : Rat) : Rat := (rne (x / ulpOf m x) : Rat) * ulpOf m x

theorem toFmt_eq (m : Fmt) (x : Rat) (hx : x ≠ 0) :
    toFmt m x = if |rounded m x| < 2 ^ (m.emax + 1) then .num (rounded m x) else .inf (decide (x < 0)) := by
  unfold toFmt rounded ulpOf
  simp only [hx, ↓reduceIte, pow2_eq, mag_eq]
  by_cases h : (2 : Rat) ^ (m.emax + 1) ≤
      |(rne (x / (2 : Rat) ^ (max (expo x) m.emin - ((m.bits : Int) - 1))) : Rat) * (2 : Rat) ^ (max (expo x) m.emin - ((m.bits : Int) - 1))|
  · rw [if_pos h, if_neg (not_lt.mpr h)]
  · rw [if_neg h, if_pos (not_le.mp h)]

theorem ulp_pos (m : Fmt) (x : Rat) : 0 < ulpOf m x := two_zpow_pos _

theorem rounded_near (m : Fmt) (x : Rat) : |x - rounded m x| ≤ ulpOf m x / 2 := by
  have h := rne_near (x / ulpOf m x)
  have hu := ulp_pos m x
  have : x - rounded m x = (x / ulpOf m x - rne (x / ulpOf m x)) * ulpOf m x := by
    unfold rounded; field_simp
  rw [this, abs_mul, abs_of_pos hu]
  nlinarith

theorem dist_mul (m : Fmt) (x : Rat) (n : Int) :
    |x - (n : Rat) * ulpOf m x| = |x / ulpOf m x - n| * ulpOf m x := by
  have hu := ulp_pos m x
  have : x - (n : Rat) * ulpOf m x = (x / ulpOf m x - n) * ulpOf m x := by field_simp
  rw [this, abs_mul, abs_of_pos hu]

/-- significand of `x` is below `2^p` steps -/
theorem sig_lt (m : Fmt) (x : Rat) (hx : x ≠ 0) : |x / ulpOf m x| < 2 ^ m.bits := by
  have hu := ulp_pos m x
  rw [abs_div, abs_of_pos hu, div_lt_iff₀ hu]
  have h := (expo_spec x hx).2
  refine lt_of_lt_of_le h ?_
  unfold ulpOf
  rw [← zpow_natCast, ← two_zpow_add]
  apply two_zpow_le
  omega

theorem rne_sig (m : Fmt) (x : Rat) (hx : x ≠ 0) : |rne (x / ulpOf m x)| ≤ 2 ^ m.bits := by
  have h := sig_lt m x hx
  have h2 := rne_near (x / ulpOf m x)
  have : |(rne (x / ulpOf m x) : Rat)| < 2 ^ m.bits + 1 := by
    have t : |(rne (x / ulpOf m x) : Rat)| ≤ |(rne (x / ulpOf m x) : Rat) - x / ulpOf m x| + |x / ulpOf m x| := by
      have := abs_add_le ((rne (x / ulpOf m x) : Rat) - x / ulpOf m x) (x / ulpOf m x)
      simpa using this
    rw [abs_sub_comm] at t
    linarith
  have h3 : |rne (x / ulpOf m x)| < 2 ^ m.bits + 1 := by exact_mod_cast this
  omega

theorem float_of_le (p : Nat) (hp : 1 ≤ p) (emin : Int) (n e : Int) (hn : |n| ≤ 2 ^ p) (he : emin - ((p : Int) - 1) ≤ e) :
    IsFloat p emin ((n : Rat) * 2 ^ e) := by
  rcases lt_or_eq_of_le hn with h | h
  · exact ⟨n, e, h, he, rfl⟩
  · have hp2 : (2 : Int) ^ p = 2 ^ (p - 1) * 2 := by rw [← pow_succ]; congr 1; omega
    have hpos : (0 : Int) < 2 ^ (p - 1) := by positivity
    rcases abs_eq (by positivity : (0 : Int) ≤ 2 ^ p) |>.mp h with h | h
    · refine ⟨2 ^ (p - 1), e + 1, ?_, by omega, ?_⟩
      · rw [abs_of_pos hpos]; omega
      · rw [h, hp2, two_zpow_add]; push_cast; ring
    · refine ⟨-2 ^ (p - 1), e + 1, ?_, by omega, ?_⟩
      · rw [abs_neg, abs_of_pos hpos]; omega
      · rw [h, hp2, two_zpow_add]; push_cast; ring

theorem rounded_float (m : Fmt) (hp : 1 ≤ m.bits) (x : Rat) (hx : x ≠ 0) : IsFloat m.bits m.emin (rounded m x) := by
  unfold rounded
  have := rne_sig m x hx
  unfold ulpOf at this ⊢
  exact float_of_le m.bits hp m.emin _ _ this (by omega)

theorem zero_float (p : Nat) (emin : Int) : IsFloat p emin 0 :=
  ⟨0, emin - ((p : Int) - 1), by simp, le_refl _, by simp⟩

/-- a number of the format is a multiple of the step at `x`, or it is nearer to zero than `x` is to
its own binade's lower end -/
theorem float_cases (m : Fmt) (x z : Rat) (hz : IsFloat m.bits m.emin z) :
    (∃ n : Int, z = (n : Rat) * ulpOf m x) ∨ (m.emin ≤ expo x ∧ |z| < 2 ^ expo x) := by
  obtain ⟨k, e, hk, he, rfl⟩ := hz
  by_cases h : max (expo x) m.emin - ((m.bits : Int) - 1) ≤ e
  · left
    refine ⟨k * 2 ^ (e - (max (expo x) m.emin - ((m.bits : Int) - 1))).toNat, ?_⟩
    unfold ulpOf
    push_cast
    rw [mul_assoc, ← zpow_natCast, ← two_zpow_add]
    congr 2
    rw [Int.toNat_of_nonneg (by omega)]; ring
  · right
    have hm : m.emin ≤ expo x := by
      by_contra hc
      rw [max_eq_right (by omega)] at h
      omega
    refine ⟨hm, ?_⟩
    rw [max_eq_left hm] at h
    have hk' : |(k : Rat)| < 2 ^ m.bits := by exact_mod_cast hk
    rw [abs_mul, abs_of_pos (two_zpow_pos e)]
    have hle : (2 : Rat) ^ m.bits * 2 ^ e ≤ 2 ^ expo x := by
      rw [← zpow_natCast, ← two_zpow_add]; apply two_zpow_le; omega
    have := two_zpow_pos e
    nlinarith

/-- the lower end of the binade of `x`, with the sign of `x`, is a multiple of the step -/
theorem binade_mult (m : Fmt) (hp : 1 ≤ m.bits) (x : Rat) (hm : m.emin ≤ expo x) :
    ∃ n : Int, (n : Rat) * ulpOf m x = 2 ^ expo x := by
  refine ⟨2 ^ (m.bits - 1), ?_⟩
  unfold ulpOf
  push_cast
  rw [max_eq_left hm, ← zpow_natCast, ← two_zpow_add]
  congr 1
  omega

theorem far (x z : Rat) (a : Rat) (ha : 0 < a) (hx : a ≤ |x|) (hz : |z| < a) :
    ∃ s : Int, (s = 1 ∨ s = -1) ∧ |x - (s : Rat) * a| < |x - z| := by
  rw [abs_lt] at hz
  rcases le_total 0 x with h | h
  · refine ⟨1, .inl rfl, ?_⟩
    rw [abs_of_nonneg h] at hx
    rw [Int.cast_one, one_mul, abs_of_nonneg (by linarith), abs_of_pos (by linarith)]
    linarith
  · refine ⟨-1, .inr rfl, ?_⟩
    rw [abs_of_nonpos h] at hx
    rw [Int.cast_neg, Int.cast_one, neg_mul, one_mul, abs_of_nonpos (by linarith), abs_of_neg (by linarith)]
    linarith

theorem rounded_nearest (m : Fmt) (hp : 2 ≤ m.bits) (x : Rat) (hx : x ≠ 0) :
    IsNearestFloat m.bits m.emin x (rounded m x) := by
  have hu := ulp_pos m x
  have near : ∀ n : Int, |x - rounded m x| ≤ |x - (n : Rat) * ulpOf m x| := by
    intro n
    unfold rounded
    rw [dist_mul, dist_mul]
    exact mul_le_mul_of_nonneg_right (rne_nearest _ n) hu.le
  have strict : ∀ z : Rat, m.emin ≤ expo x → |z| < 2 ^ expo x → |x - rounded m x| < |x - z| := by
    intro z hm hz
    obtain ⟨s, _, hs⟩ := far x z _ (two_zpow_pos _) (expo_spec x hx).1 hz
    obtain ⟨n, hn⟩ := binade_mult m (by omega) x hm
    have := near (s * n)
    push_cast at this
    rw [mul_assoc, hn] at this
    linarith
  refine ⟨rounded_float m (by omega) x hx, ?_, ?_⟩
  · intro z hz
    rcases float_cases m x z hz with ⟨n, rfl⟩ | ⟨hm, h⟩
    · exact near n
    · exact (strict z hm h).le
  · intro z hz hne heq
    rcases float_cases m x z hz with ⟨n, rfl⟩ | ⟨hm, h⟩
    · have hne' : n ≠ rne (x / ulpOf m x) := by
        rintro rfl; exact hne rfl
      have hev : rne (x / ulpOf m x) % 2 = 0 := by
        apply rne_tie _ n hne'
        unfold rounded at heq
        rw [dist_mul, dist_mul] at heq
        exact mul_right_cancel₀ hu.ne' heq
      obtain ⟨k, hk⟩ : ∃ k, rne (x / ulpOf m x) = k * 2 := ⟨rne (x / ulpOf m x) / 2, by omega⟩
      have hs := rne_sig m x hx
      have hk2 : |k| ≤ 2 ^ (m.bits - 1) := by
        rw [hk, abs_mul] at hs
        have : (2 : Int) ^ m.bits = 2 ^ (m.bits - 1) * 2 := by rw [← pow_succ]; congr 1; omega
        rw [this] at hs
        have h2 : |(2 : Int)| = 2 := rfl
        rw [h2] at hs
        omega
      have e1 : rounded m x = (k : Rat) * 2 ^ (max (expo x) m.emin - ((m.bits : Int) - 1) + 1) := by
        unfold rounded; rw [hk, two_zpow_add]; unfold ulpOf; push_cast; ring
      rw [e1]
      apply float_of_le (m.bits - 1) (by omega) m.emin k _ hk2
      omega
    · have := strict z hm h
      linarith

theorem zero_nearest (p : Nat) (emin : Int) : IsNearestFloat p emin 0 0 := by
  refine ⟨zero_float _ _, fun z _ => by simp, fun z _ _ _ => zero_float _ _⟩

theorem toFmt_stored (m : Fmt) (hp : 2 ≤ m.bits) (x : Rat) :
    ∃ r, IsNearestFloat m.bits m.emin x r ∧
      toFmt m x = if |r| < (2 : Rat) ^ (m.emax + 1) then .num r else .inf (decide (x < 0)) := by
  by_cases hx : x = 0
  · subst hx
    exact ⟨0, zero_nearest _ _, by simp [toFmt, two_zpow_pos]⟩
  · exact ⟨_, rounded_nearest m hp x hx, toFmt_eq m x hx⟩

end Beep.Casts
