import Verif.Model.Table
/-
Linear model experiments: beep/model.py.
Simplifications: row labels are distinct, cells are numbers or missing (see Model/Table), exact
arithmetic; the square root of the scaler and the fitted estimator are arbitrary functions of what
sklearn gets to see.  Training errors and logging are left out.
-/
namespace Beep.LinearModel
open Beep Text Pandas Table

/-- one prediction is made per target: coefficients and intercept (model.py:210-296) -/
abbrev Fitted := List (List Rat × Rat)

/-- `model_name` (82, 110) (model.py:82, 110) -/
inductive ModelName where
  | elasticnet
  | ridge
  | lasso
  | other
  deriving DecidableEq, Repr

/-- library functions the results depend on; `H` stands for the arguments that only reach sklearn
(alphas, kfold, max_iter, tol, l1_ratio) (model.py:210-296) -/
structure Env (H : Type) where
  /-- square root used for the standard deviation -/
  sqrt : Rat → Rat
  /-- cross validation and fit (274-290): scaled features and targets to coefficients -/
  learn : H → ModelName → List (List Rat) → List (List Rat) → Except Err Fitted

/-- the arguments of the constructor (90-109), without the matrices -/
structure Args (H : Type) where
  targets : List Str
  model : ModelName
  featThresh : Rat := 95 / 100
  sampleThresh : Rat := 1 / 2
  predictThresh : Rat := 3 / 4
  dropNanTargets : Bool := false
  impute : Impute := .median
  homogenize : Bool := true
  hyper : H

/-- `StandardScaler`: mean and scale per column, `none` for a column without values
(model.py:210-296) -/
abbrev Scaler := List (Option (Rat × Rat))

/-- a `BEEPLinearModelExperiment` (model.py:90-208) -/
structure Exp (H : Type) where
  featureMatrix : Table
  targetMatrix : Table
  args : Args H
  X : Table
  y : Table
  featureLabels : List Str
  scaler : Scaler
  model : Option Fitted

variable {H : Type}

/-- `StandardScaler().fit` on one column: missing values are ignored, a zero deviation scales by 1
(model.py:210-296) -/
def fitCol (env : Env H) (vs : List (Option Rat)) : Option (Rat × Rat) :=
  match meanN vs with
  | none => none
  | some mu =>
    let var := (meanN (vs.map (Option.map (fun x => (x - mu) * (x - mu))))).getD 0
    some (mu, if var = 0 then 1 else env.sqrt var)

/-- `StandardScaler().fit(X)` (model.py:210-296) -/
def fit (env : Env H) (t : Table) : Scaler := t.cols.map (fun c => fitCol env (t.rows.map c.cell))

/-- `scaler.transform` of one cell (model.py:210-296, 298-377) -/
def scaleCell (p : Option (Rat × Rat)) (v : Option Rat) : Option Rat :=
  match p, v with
  | some (mu, sd), some x => some ((x - mu) / sd)
  | _, _ => none

/-- `scaler.transform(X)`: one list per sample (model.py:210-296, 298-377) -/
def transform (sc : Scaler) (t : Table) : List (List (Option Rat)) :=
  t.rows.map (fun r => (sc.zip t.cols).map (fun p => scaleCell p.1 (p.2.cell r)))

/-- sklearn refuses missing values (model.py:210-296) -/
def finite (rows : List (List (Option Rat))) : Except Err (List (List Rat)) :=
  if rows.all (fun r => r.all Option.isSome) then .ok (rows.map (fun r => r.filterMap id))
  else .error .valueError

/-- 120-125: the matrix the constructor works on, a renamed copy -/
def homogenized (b : Bool) (m : Table) : Table := if b then m.rename stripLast else m

/-- 137-148: the clean feature matrix -/
def cleanX (a : Args H) (X : Table) : Except Err Table :=
  let X := X.dropCols a.sampleThresh
  let X := X.dropRows (a.sampleThresh * X.cols.length)
  match impute a.impute X with
  | .error e => .error e
  | .ok X => if X.rows.length < 2 ∨ X.cols.length < 1 then .error .beepError else .ok X

/-- 150-169: the clean targets of the samples in `rows` -/
def cleanY (a : Args H) (y : Table) (rows : List Str) : Except Err Table :=
  if a.targets.any (fun t => !(y.names.contains t)) then .error .beepError
  else if rows.any (fun r => !(y.rows.contains r)) then .error .keyError
  else
    let y := (y.select a.targets).loc rows
    if rows.all (fun r => y.cols.all (fun c => (c.cell r).isSome)) then .ok y
    else if a.dropNanTargets then
      let y := y.dropIncomplete
      if y.rows.length < 2 then .error .beepError else .ok y
    else .error .beepError

/-- 90-208 `__init__` -/
def construct (env : Env H) (a : Args H) (fm tm : Table) : Except Err (Exp H) :=
  if a.model = .other then .error .valueError
  else if a.targets.length < 1 then .error .valueError
  else if fm.rows.length ≠ tm.rows.length then .error .beepError
  else match cleanX a (homogenized a.homogenize fm) with
    | .error e => .error e
    | .ok X => match cleanY a (homogenized a.homogenize tm) X.rows with
      | .error e => .error e
      | .ok y =>
        if a.targets.length > 1 ∧ a.model ≠ .elasticnet then .error .beepError
        else .ok { featureMatrix := fm, targetMatrix := tm, args := a, X := X.loc y.rows, y := y,
                   featureLabels := X.names, scaler := fit env X, model := none }

/-- 210-296 `train(X, y)` with the given frames -/
def trainOn (env : Env H) (e : Exp H) (X y : Table) : Except Err (Exp H) := do
  let sc := fit env X
  let xs ← finite (transform sc X)
  let ys ← finite (y.rows.map (fun r => y.cols.map (fun c => c.cell r)))
  let m ← env.learn e.args.hyper e.args.model xs ys
  .ok { e with scaler := sc, model := some m }

/-- `train()` without arguments: all training data (model.py:210-296) -/
def train (env : Env H) (e : Exp H) : Except Err (Exp H) := trainOn env e e.X e.y

/-- 379-397 `train_and_score`: trains on the samples that `train_test_split` picked -/
def trainSubset (env : Env H) (e : Exp H) (picked : List Str) : Except Err (Exp H) :=
  trainOn env e (e.X.loc picked) (e.y.loc picked)

/-- `np.dot(coef, x) + intercept` (model.py:298-377) -/
def decision (p : List Rat × Rat) (x : List Rat) : Rat :=
  ((p.1.zip x).map (fun q => q.1 * q.2)).sum + p.2

/-- 336-377: the rest of `predict`, on the renamed frame -/
def predictFrame (e : Exp H) (m : Fitted) (X : Table) :
    Except Err (List (Str × List Rat) × List Str) := do
  if e.featureLabels.any (fun f => !(X.names.contains f)) then .error .beepError
  else
    let Z := (X.select e.featureLabels).dropRows (e.args.predictThresh * X.cols.length)
    let Z ← impute e.args.impute Z
    let dropped := if X.rows.length ≠ Z.rows.length then X.rows.filter (fun s => !(Z.names.contains s)) else []
    if Z.rows = [] ∨ Z.cols.length ≠ e.scaler.length then .error .valueError
    else
      let xs ← finite (transform e.scaler Z)
      .ok (Z.rows.zip (xs.map (fun x => m.map (fun p => decision p x))), dropped)

/-- 298-377 `predict`: also returns the caller's frame as the call leaves it -/
def predict (e : Exp H) (X : Table) (homogenize : Option Bool) :
    Table × Except Err (List (Str × List Rat) × List Str) :=
  match e.model with
  | none => (X, .error .beepError)
  | some m =>
    let X := if homogenize.getD e.args.homogenize then X.rename stripLast else X
    (X, predictFrame e m X)

/-- `predict` on the experiment's own feature matrix, which is then renamed (model.py:298-377) -/
def predictOwn (e : Exp H) (homogenize : Option Bool) :
    Exp H × Except Err (List (Str × List Rat) × List Str) :=
  let r := predict e e.featureMatrix homogenize
  ({ e with featureMatrix := r.1 }, r.2)

/-- what `as_dict` saves (474-515): not the scaler -/
structure Saved (H : Type) where
  featureMatrix : Table
  targetMatrix : Table
  args : Args H
  model : Fitted

/-- 474-515 `as_dict` -/
def asDict (e : Exp H) : Except Err (Saved H) :=
  match e.model with
  | none => .error .valueError
  | some m => .ok ⟨e.featureMatrix.viaDict, e.targetMatrix.viaDict, e.args, m⟩

/-- 517-562 `from_dict` -/
def fromDict (env : Env H) (d : Saved H) : Except Err (Exp H) := do
  let e ← construct env d.args d.featureMatrix d.targetMatrix
  .ok { e with model := some d.model }

end Beep.LinearModel
