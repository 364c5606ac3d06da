import Mathlib.Data.List.Forall2
import Verif.Spec.Stats
import Verif.Spec.LinearModel
/-
What imputed values and linear predictions are: C49, C71.
-/
namespace Beep.Spec.Prediction
open Beep Table LinearModel Spec.Stats Spec.Splitter

/-- `v` is what missing cells get, given the values that are present: their median or mean, nothing when
none is present or imputation is off -/
def Imputes (m : Impute) (l : List Rat) (v : Option Rat) : Prop :=
  match m with
  | .median => (l = [] ∧ v = none) ∨ ∃ x, v = some x ∧ IsMedian l x
  | .mean => (l = [] ∧ v = none) ∨ ∃ x, v = some x ∧ IsMean l x
  | .none => v = Option.none
  | .other => False

/-- the values of a column in the given samples -/
def column (t : Table) (samples : List Str) (n : Str) : List Rat := present (samples.map (cellOf t n))

variable {H : Type}

/-- `z` is `x` in standard deviations from the mean of a list, not divided when all its values agree -/
def IsStandardised (env : Env H) (l : List Rat) (x z : Rat) : Prop :=
  ∃ mu v, IsMean l mu ∧ IsVariance l mu v ∧ z = (x - mu) / (if v = 0 then 1 else env.sqrt v)

/-- the standardised features of a sample, relative to the samples `rows` of `T` -/
def IsFeatures (env : Env H) (T : Table) (rows : List Str) (sample : Str → Option Rat) (z : List Rat) : Prop :=
  List.Forall₂ (fun n z => ∃ x, sample n = some x ∧ IsStandardised env (column T rows n) x z) T.names z

/-- sum of products plus intercept -/
def linear (coef : List Rat) (z : List Rat) (b : Rat) : Rat := (List.zipWith (· * ·) coef z).sum + b

/-- `e` was trained on the samples `rows` of `e0` -/
def TrainedOn (env : Env H) (e0 e : Exp H) (rows : List Str) : Prop :=
  (rows = e0.X.rows ∧ train env e0 = .ok e) ∨
  (rows ≠ [] ∧ (∀ r ∈ rows, r ∈ e0.X.rows) ∧ trainSubset env e0 rows = .ok e)

end Beep.Spec.Prediction
