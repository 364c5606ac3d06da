import Verif.Model.Pca
/-
What a user of the principal components is told: the table of discharges, the components needed,
percentiles.
-/
namespace Beep.Spec.Pca
open Beep.Pca

/-- a row of structured data that is asked for: it is part of a discharge, and its cycle is wanted -/
def Wanted (cycles : List Int) (p : Point) : Prop := p.stepType = "discharge".toList ∧ p.cycle ∈ cycles

/-- `l` has the value `v` at the fractional place `h` when it is put in order, counting from 0: at a
whole place the entry itself, in between on the straight line joining the two neighbours -/
def AtPlace (l : List Rat) (h v : Rat) : Prop :=
  ∃ s : List Rat, s.Perm l ∧ s.Pairwise (· ≤ ·) ∧ ∃ (i : Nat) (a : Rat), s[i]? = some a ∧
    ((h = i ∧ v = a) ∨
     (∃ b, s[i + 1]? = some b ∧ i < h ∧ h < i + 1 ∧ v = a + (h - i) * (b - a)))

/-- `v` is the `q`-th percentile of `l`: 0 is the least, 100 the greatest value, and the others are
spaced evenly -/
def IsPercentile (q : Rat) (l : List Rat) (v : Rat) : Prop :=
  AtPlace l (q / 100 * ((l.length : Rat) - 1)) v

/-- the values of a list are not all the same -/
def Varies (l : List Rat) : Prop := ∃ a ∈ l, ∃ b ∈ l, a ≠ b

/-- the first `k` components explain the share `s` of the variance -/
def Explains (ratios : List (Option Rat)) (k : Nat) (s : Rat) : Prop :=
  ∃ xs : List Rat, ratios.take k = xs.map some ∧ xs.length = k ∧ s = xs.sum

/-- `d` is the mean distance between the entries of two rows -/
def MeanDistance (a b : List Rat) (d : Rat) : Prop :=
  d * b.length = (List.zipWith (fun x y => if x ≤ y then y - x else x - y) a b).sum

end Beep.Spec.Pca
