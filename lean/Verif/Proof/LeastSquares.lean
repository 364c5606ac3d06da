import Verif.Proof.Base
import Mathlib.Tactic.LinearCombination
import Verif.Spec.CoreFeatures
/-
The line of `polyfit` is the best line.
-/
namespace Beep.Proof.LeastSquares
open Beep.CoreFeatures Beep.Spec.CoreFeatures

def sx (pts : List (Rat × Rat)) : Rat := (pts.map Prod.fst).sum
def sy (pts : List (Rat × Rat)) : Rat := (pts.map Prod.snd).sum
def sxx (pts : List (Rat × Rat)) : Rat := (pts.map (fun p => p.1 * p.1)).sum
def sxy (pts : List (Rat × Rat)) : Rat := (pts.map (fun p => p.1 * p.2)).sum
def syy (pts : List (Rat × Rat)) : Rat := (pts.map (fun p => p.2 * p.2)).sum

theorem squares_eq (pts : List (Rat × Rat)) (m b : Rat) :
    squares pts m b = syy pts - 2 * m * sxy pts - 2 * b * sy pts + m * m * sxx pts + 2 * m * b * sx pts +
      b * b * pts.length := by
  unfold squares sx sy sxx sxy syy
  induction pts with
  | nil => simp
  | cons p pts ih =>
    simp only [List.map_cons, List.sum_cons, List.length_cons, Nat.cast_add, Nat.cast_one]
    rw [ih]
    ring

theorem spread_eq (pts : List (Rat × Rat)) (n s : Rat) :
    (pts.map (fun p => (n * p.1 - s) * (n * p.1 - s))).sum =
      n * n * sxx pts - 2 * n * s * sx pts + s * s * pts.length := by
  unfold sx sxx
  induction pts with
  | nil => simp
  | cons p pts ih =>
    simp only [List.map_cons, List.sum_cons, List.length_cons, Nat.cast_add, Nat.cast_one]
    rw [ih]
    ring

theorem sum_sq_pos (pts : List (Rat × Rat)) (g : Rat × Rat → Rat) (p : Rat × Rat) (hp : p ∈ pts) (hg : g p ≠ 0) :
    0 < (pts.map (fun p => g p * g p)).sum := by
  have nonneg : ∀ l : List (Rat × Rat), 0 ≤ (l.map (fun p => g p * g p)).sum := by
    intro l
    induction l with
    | nil => simp
    | cons q l ih =>
      simp only [List.map_cons, List.sum_cons]
      have := mul_self_nonneg (g q)
      linarith
  induction pts with
  | nil => cases hp
  | cons q l ih =>
    simp only [List.map_cons, List.sum_cons]
    rcases List.mem_cons.1 hp with rfl | hp
    · have := mul_self_pos.2 hg
      have := nonneg l
      linarith
    · have := ih hp
      have := mul_self_nonneg (g q)
      linarith

theorem det_pos (pts : List (Rat × Rat)) (p q : Rat × Rat) (hp : p ∈ pts) (hq : q ∈ pts) (hne : p.1 ≠ q.1) :
    0 < (pts.length : Rat) * sxx pts - sx pts * sx pts := by
  have hn : (0 : Rat) < pts.length := by
    have : 0 < pts.length := List.length_pos_of_mem hp
    exact_mod_cast this
  have key : ∃ r ∈ pts, (pts.length : Rat) * r.1 - sx pts ≠ 0 := by
    by_contra hc
    push Not at hc
    have h1 := hc p hp
    have h2 := hc q hq
    apply hne
    have : (pts.length : Rat) * p.1 = pts.length * q.1 := by linarith
    exact mul_left_cancel₀ (ne_of_gt hn) this
  obtain ⟨r, hr, hg⟩ := key
  have h := sum_sq_pos pts (fun p => (pts.length : Rat) * p.1 - sx pts) r hr hg
  rw [spread_eq] at h
  have e : (pts.length : Rat) * pts.length * sxx pts - 2 * pts.length * sx pts * sx pts + sx pts * sx pts * pts.length =
      pts.length * ((pts.length : Rat) * sxx pts - sx pts * sx pts) := by ring
  rw [e] at h
  exact (mul_pos_iff_of_pos_left hn).1 h

/-- the fitted line is the only best one as soon as two points differ in place -/
theorem polyfit_best (pts : List (Rat × Rat)) (p q : Rat × Rat) (hp : p ∈ pts) (hq : q ∈ pts) (hne : p.1 ≠ q.1) :
    BestLine pts (polyfit pts).1 (polyfit pts).2 := by
  have hD := det_pos pts p q hp hq hne
  have hn : (0 : Rat) < pts.length := by
    have : 0 < pts.length := List.length_pos_of_mem hp
    exact_mod_cast this
  generalize hm : (polyfit pts).1 = m
  generalize hb : (polyfit pts).2 = b
  have hm' : m * ((pts.length : Rat) * sxx pts - sx pts * sx pts) = pts.length * sxy pts - sx pts * sy pts := by
    rw [← hm]
    change (_ / _) * _ = _
    exact div_mul_cancel₀ _ (ne_of_gt hD)
  have hb' : b * (pts.length : Rat) = sy pts - m * sx pts := by
    rw [← hb, ← hm]
    change (_ / _) * _ = _
    exact div_mul_cancel₀ _ (ne_of_gt hn)
  clear hm hb hp hq hne
  have n1 : m * sx pts + b * pts.length - sy pts = 0 := by linarith
  have n2 : m * sxx pts + b * sx pts - sxy pts = 0 := by
    have : (pts.length : Rat) * (m * sxx pts + b * sx pts - sxy pts) = 0 := by
      have : (pts.length : Rat) * (m * sxx pts + b * sx pts - sxy pts) =
        m * (pts.length * sxx pts) + (b * pts.length) * sx pts - pts.length * sxy pts := by ring
      rw [this, hb']
      linarith
    exact (mul_eq_zero.1 this).resolve_left (ne_of_gt hn)
  intro m' b'
  have key : (pts.length : Rat) * (squares pts m' b' - squares pts m b) =
      (pts.length * (b' - b) + (m' - m) * sx pts) * (pts.length * (b' - b) + (m' - m) * sx pts) +
        (m' - m) * (m' - m) * ((pts.length : Rat) * sxx pts - sx pts * sx pts) := by
    rw [squares_eq, squares_eq]
    linear_combination (2 * pts.length * (b' - b)) * n1 + (2 * pts.length * (m' - m)) * n2
  have s1 := mul_self_nonneg ((pts.length : Rat) * (b' - b) + (m' - m) * sx pts)
  have s2 := mul_nonneg (mul_self_nonneg (m' - m)) (le_of_lt hD)
  constructor
  · have : 0 ≤ (pts.length : Rat) * (squares pts m' b' - squares pts m b) := by rw [key]; linarith
    have := (mul_nonneg_iff_of_pos_left hn).1 this
    linarith
  · intro hle
    have hz : (pts.length : Rat) * (squares pts m' b' - squares pts m b) ≤ 0 :=
      mul_nonpos_of_nonneg_of_nonpos (le_of_lt hn) (by linarith)
    rw [key] at hz
    have hm0 : m' - m = 0 := by
      by_contra hc
      have := mul_pos (mul_self_pos.2 hc) hD
      linarith
    rw [hm0] at hz
    have hb0 : (pts.length : Rat) * (b' - b) = 0 := by
      by_contra hc
      have := mul_self_pos.2 hc
      simp only [zero_mul, add_zero] at hz
      linarith
    have := (mul_eq_zero.1 hb0).resolve_left (ne_of_gt hn)
    constructor <;> linarith

end Beep.Proof.LeastSquares
