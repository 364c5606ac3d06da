import Mathlib.Algebra.Order.Field.Rat
import Mathlib.Algebra.Order.Field.Basic
import Verif.Model.TrainCmd
import Verif.Spec.Prediction
/-
Vocabulary for the statements about scores and about the commands `beep train` and `beep predict`:
C114-C117.
-/
namespace Beep.Spec.TrainCmd
open Beep Table LinearModel TrainCmd Spec.Stats Spec.LinearModel Spec.Splitter

/-! ### scores -/

/-- `q` is the largest number of a list -/
def IsLargest (l : List Rat) (q : Rat) : Prop := q ∈ l ∧ ∀ x ∈ l, x ≤ q

/-- the usual error measures for pairs of a true and a predicted value -/
structure Measures (sqrt : Rat → Rat) (pairs : List (Rat × Rat)) (s : Scores) : Prop where
  rmse : ∃ m, IsMean (pairs.map (fun p => (p.1 - p.2) * (p.1 - p.2))) m ∧ s.rmse = sqrt m
  mae : IsMean (pairs.map (fun p => |p.1 - p.2|)) s.mae
  maxError : IsLargest (pairs.map (fun p => |p.1 - p.2|)) s.maxError
  /-- one minus the mean squared error over the variance of the true values -/
  r2 : 2 ≤ pairs.length → ∃ mu v m r, IsMean (pairs.map Prod.fst) mu ∧ IsVariance (pairs.map Prod.fst) mu v ∧
    IsMean (pairs.map (fun p => (p.1 - p.2) * (p.1 - p.2))) m ∧ s.r2 = some r ∧
    (v ≠ 0 → r = 1 - m / v) ∧ (v = 0 → (m = 0 → r = 1) ∧ (m ≠ 0 → r = 0))

/-- the draw puts every sample on one side, and neither side is empty -/
def Splits (split : Rat → List Str → Except Err (List Str × List Str)) : Prop :=
  ∀ q l a b, split q l = .ok (a, b) → (a ++ b).Perm l ∧ a ≠ [] ∧ b ≠ []

/-- the estimator returns one linear function per target -/
def OnePerTarget (env : Env Hyper) : Prop :=
  ∀ h m xs ys f, env.learn h m xs ys = .ok f → ∀ y ∈ ys, y.length = f.length

/-! ### beep train -/

/-- the estimator with a name -/
def estimator (s : Str) : ModelName :=
  (([("elasticnet", .elasticnet), ("ridge", .ridge), ("lasso", .lasso)] : List (String × ModelName)).lookup (String.ofList s)).getD .other

/-- the strategy of imputation with a name -/
def strategy (s : Str) : Impute :=
  (([("median", .median), ("mean", .mean), ("none", .none)] : List (String × Impute)).lookup (String.ofList s)).getD .other

/-- the arguments of the experiment that the options of `beep train` ask for: what is given, and the
documented defaults otherwise.  `alphas` is the grid asked for, `l1` the list of ratios. -/
def requested (o : TrainOpts) (alphas l1 : Option (List Rat)) : Args Hyper :=
  { targets := o.targets
    model := estimator o.model
    featThresh := o.featureThresh.getD (95 / 100)
    sampleThresh := o.sampleThresh.getD (1 / 2)
    predictThresh := o.predictThresh.getD (3 / 4)
    dropNanTargets := true
    impute := (o.impute.map strategy).getD .median
    homogenize := o.homogenize.getD true
    hyper :=
      { alphas := alphas
        kfold := o.kfold.getD 5
        maxIter := o.maxIter.getD 1000000
        tol := o.tol.getD (1 / 10000)
        l1Ratio := l1.getD [1 / 1000, 1 / 10, 1 / 2, 7 / 10, 9 / 10, 95 / 100, 1] } }

/-- none of the options whose values do not reach the model is used -/
def Plain (o : TrainOpts) : Prop :=
  o.alphaLower = none ∧ o.alphaUpper = none ∧ o.nAlphas = none ∧ o.featureThresh = none ∧
  o.sampleThresh = none ∧ o.l1Ratios = none

/-- the samples the command trains on -/
def TrainingSamples (w : World) (o : TrainOpts) (e0 : Exp Hyper) (rows : List Str) : Prop :=
  match o.frac with
  | none => rows = e0.X.rows
  | some q => ∃ rest, w.split q e0.X.rows = .ok (rows, rest)

/-- all files but the ones named are as before -/
def OnlyChanges (fs fs' : Batch.Files Content) (names : List (Option Str)) : Prop :=
  ∀ p, some p ∉ names → fs' p = fs p

end Beep.Spec.TrainCmd
