import Mathlib.Analysis.Real.Sqrt
/-
Specification vocabulary for the error of a fit of the intracell analysis.
-/
namespace Beep.Spec.IntracellFit

/-- the points of a curve that have a value -/
def known (c : List (Rat × Option Rat)) : List (Rat × Rat) := c.filterMap (fun p => match p.2 with
  | some v => some (p.1, v)
  | none => none)

/-- `v` is the sample variance of numbers: the sum of the squared deviations from the mean, over one less than their
number -/
def SampleVariance (l : List Rat) (v : Rat) : Prop :=
  ∃ m, m * (l.length : Rat) = l.sum ∧ v * ((l.length : Rat) - 1) = (l.map (fun x => (x - m) * (x - m))).sum

/-- `d` is the standardised Euclidean distance of `p` and `q`: each coordinate in units of its standard deviation among
all points -/
def Distance (all : List (Rat × Rat)) (p q : Rat × Rat) (d : ℝ) : Prop :=
  0 ≤ d ∧ ∃ v w : Rat, SampleVariance (all.map Prod.fst) v ∧ SampleVariance (all.map Prod.snd) w ∧ 0 < v ∧ 0 < w ∧
    d * d = (((p.1 - q.1) * (p.1 - q.1) / v + (p.2 - q.2) * (p.2 - q.2) / w : Rat) : ℝ)

/-- `d` is the distance of `p` from the nearest of the other points -/
def NearestDistance (all others : List (Rat × Rat)) (p : Rat × Rat) (d : ℝ) : Prop :=
  (∃ q ∈ others, Distance all p q d) ∧ ∀ q ∈ others, ∀ d', Distance all p q d' → d ≤ d'

/-- `e` is the mean over the points `xa` of the distance from the nearest of the points `xb` -/
def MeanNearest (xa xb : List (Rat × Rat)) (e : ℝ) : Prop :=
  ∃ ds : List ℝ, ds.length = xa.length ∧
    (∀ (k : Nat) (p : Rat × Rat), xa[k]? = some p → ∃ d, ds[k]? = some d ∧ NearestDistance (xa ++ xb) xb p d) ∧
    e * (xa.length : ℝ) = ds.sum

/-- neither all first nor all second coordinates of the points agree -/
def Spread (l : List (Rat × Rat)) : Prop := (∃ p ∈ l, ∃ q ∈ l, p.1 ≠ q.1) ∧ ∃ p ∈ l, ∃ q ∈ l, p.2 ≠ q.2

end Beep.Spec.IntracellFit
