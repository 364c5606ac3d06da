/-
Mean, median and standard deviation as a statistician defines them; missing values are left out.
-/
namespace Beep.Spec.Stats

/-- the values that are not missing -/
def present (vs : List (Option Rat)) : List Rat := vs.filterMap id

/-- `m` is the mean of a list -/
def IsMean (l : List Rat) (m : Rat) : Prop := l ≠ [] ∧ m * l.length = l.sum

/-- `m` is the median: the middle value when the list is put in order, or the mean of the two middle
values -/
def IsMedian (l : List Rat) (m : Rat) : Prop :=
  ∃ s : List Rat, s.Perm l ∧ s.Pairwise (· ≤ ·) ∧
    ((∃ k : Nat, s.length = 2 * k + 1 ∧ s[k]? = some m) ∨
     (∃ (k : Nat) (a b : Rat), s.length = 2 * k + 2 ∧ s[k]? = some a ∧ s[k + 1]? = some b ∧ m = (a + b) / 2))

/-- `v` is the variance about the mean `m` -/
def IsVariance (l : List Rat) (m v : Rat) : Prop := IsMean (l.map (fun x => (x - m) * (x - m))) v

end Beep.Spec.Stats
