import Verif.Model.LinearModel
import Verif.Model.Batch
/-
Scoring of linear models (beep/model.py) and the commands `beep train` and `beep predict` of
beep/cmd.py.
Simplifications: files hold one of the objects of `Content`; the time stamps, wall times, log lines and
metadata of the status files are left out; Ctrl-C is left out; every text a command line option is
parsed from is already a number, except the list of l1 ratios.
-/
namespace Beep.TrainCmd
open Beep Table LinearModel
open Beep.Batch (Files)

/-- the arguments of the constructor that only reach sklearn (model.py 96, 101-107) -/
structure Hyper where
  alphas : Option (List Rat) := none
  kfold : Rat := 5
  maxIter : Rat := 1000000
  tol : Rat := 1 / 10000
  l1Ratio : List Rat := [1 / 1000, 1 / 10, 1 / 2, 7 / 10, 9 / 10, 95 / 100, 1]
  deriving DecidableEq, Repr

/-! ### scores -/

/-- one value of each of the `ERROR_METRICS` (model.py 83-88) -/
structure Scores where
  rmse : Rat
  mae : Rat
  r2 : Option Rat
  maxError : Rat
  deriving DecidableEq, Repr

/-- `mean_squared_error` (sklearn; used at model.py:404-431) -/
def meanSquared (y p : List Rat) : Rat :=
  (List.zipWith (fun a b => (a - b) * (a - b)) y p).sum / (y.length : Rat)

/-- `mean_absolute_error` (sklearn; used at model.py:404-431) -/
def meanAbsolute (y p : List Rat) : Rat :=
  (List.zipWith (fun a b => Pandas.absR (a - b)) y p).sum / (y.length : Rat)

/-- `max_error` (sklearn; used at model.py:404-431) -/
def maxError (y p : List Rat) : Rat := (List.zipWith (fun a b => Pandas.absR (a - b)) y p).foldl max 0

/-- `r2_score`: not defined for less than two samples; 1 or 0 when all true values agree
(sklearn; used at model.py:404-431) -/
def r2Score (y p : List Rat) : Option Rat :=
  let num := (List.zipWith (fun a b => (a - b) * (a - b)) y p).sum
  let mu := y.sum / (y.length : Rat)
  let den := (y.map (fun a => (a - mu) * (a - mu))).sum
  if y.length < 2 then none
  else if den = 0 then (if num = 0 then some 1 else some 0)
  else some (1 - num / den)

/-- the metrics of one target; sklearn refuses empty lists and lists of different lengths
(model.py:404-431) -/
def scores (sqrt : Rat → Rat) (y p : List Rat) : Except Err Scores :=
  if y.length ≠ p.length ∨ y.length = 0 then .error .valueError
  else .ok { rmse := sqrt (meanSquared y p), mae := meanAbsolute y p, r2 := r2Score y p,
             maxError := maxError y p }

/-- 404-431 `_score_arrays`: the true values in the rows and columns of `y`, the predictions one list per
row.  The dictionaries are listed by target; with a single target the code leaves out its name. -/
def scoreTable (sqrt : Rat → Rat) (y : Table) (pred : List (List Rat)) : Except Err (List (Str × Scores)) :=
  y.cols.zipIdx.mapM (fun cj =>
    let ys := y.rows.map cj.1.cell
    if ys.all Option.isSome then
      match scores sqrt (ys.filterMap id) (pred.filterMap (fun l => l[cj.2]?)) with
      | .ok s => Except.ok (cj.1.name, s)
      | .error e => Except.error e
    else .error .valueError)

/-- 210-296 `train(X, y)` with the training errors it returns -/
def trainScored (env : Env Hyper) (e : Exp Hyper) (X y : Table) :
    Except Err (Exp Hyper × List (Str × Scores)) := do
  let e' ← trainOn env e X y
  let xs ← finite (transform e'.scaler X)
  let errs ← scoreTable env.sqrt y (xs.map (fun x => (e'.model.getD []).map (fun p => decision p x)))
  .ok (e', errs)

/-- 379-402 `train_and_score`.  `split` is `train_test_split`, which draws the labels of the training and
of the test samples. -/
def trainAndScore (env : Env Hyper) (split : Rat → List Str → Except Err (List Str × List Str)) (frac : Rat)
    (e : Exp Hyper) : Except Err (Exp Hyper × List (Str × Scores) × List (Str × Scores)) := do
  let s ← split frac e.X.rows
  let t ← trainScored env e (e.X.loc s.1) (e.y.loc s.1)
  let p ← (predict t.1 (e.X.loc s.2) (some false)).2
  let errs ← scoreTable env.sqrt (e.y.loc s.2) (p.1.map Prod.snd)
  .ok (t.1, t.2, errs)

/-! ### files and options -/

/-- `model_results` of a status file (cmd.py 1310-1313), without the hyperparameters found -/
structure Results where
  training : List (Str × Scores)
  test : List (Str × Scores)
  fraction : Rat
  deriving DecidableEq, Repr

/-- the status file of `beep train` (cmd.py 1272-1288) -/
structure TrainStatus where
  features : Str
  targets : Str
  featuresMd5 : Str
  targetsMd5 : Str
  results : Option Results := none
  created : Bool := false
  output : Option Str := none
  traceback : Option Err := none
  deriving DecidableEq, Repr

/-- the status file of `beep predict` (cmd.py 1440-1454) -/
structure PredictStatus where
  model : Str
  features : Str
  modelMd5 : Str
  featuresMd5 : Str
  created : Bool := false
  output : Option Str := none
  traceback : Option Err := none
  deriving DecidableEq, Repr

/-- what a file holds (cmd.py:1150-1356, 1391-1509) -/
inductive Content where
  | matrix (t : Table)
  | model (s : Saved Hyper)
  | predictions (targets : List Str) (rows : List (Str × List Rat))
  | trainStatus (s : TrainStatus)
  | predictStatus (s : PredictStatus)
  | other

/-- the libraries and the operating system (cmd.py:1150-1356, 1391-1509) -/
structure World where
  env : Env Hyper
  /-- `train_test_split` -/
  split : Rat → List Str → Except Err (List Str × List Str)
  /-- `os.path.abspath` -/
  abspath : Str → Str
  /-- cmd.py 148-161 `md5sum` of a file's content -/
  md5 : Content → Str
  /-- Python's `float` of a text -/
  float : Str → Except Err Rat
  /-- does writing to the path raise -/
  refuses : Str → Option Err
  /-- the default file name, with the time in it -/
  defaultName : Str

/-- the context of the commands (cmd.py:74-99, 215-245) -/
structure Ctx where
  cwd : Str
  haltOnError : Bool := false
  /-- `--output-status-json` -/
  status : Option Str := none

/-- the options of `beep train` (cmd.py 1001-1148).  `--drop-nan-training-targets` is a flag whose
default is already true (1106-1111), so it always arrives as true and is no field here. -/
structure TrainOpts where
  output : Option Str := none
  featureFile : Str
  targetFile : Str
  targets : List Str
  model : Str
  frac : Option Rat := none
  alphaLower : Option Rat := none
  alphaUpper : Option Rat := none
  nAlphas : Option Rat := none
  featureThresh : Option Rat := none
  sampleThresh : Option Rat := none
  predictThresh : Option Rat := none
  impute : Option Str := none
  kfold : Option Rat := none
  maxIter : Option Rat := none
  tol : Option Rat := none
  l1Ratios : Option Str := none
  homogenize : Option Bool := none

/-- value of a keyword argument (cmd.py:1150-1356) -/
inductive Val where
  | num (q : Rat)
  | flag (b : Bool)
  | text (s : Str)
  | nums (l : List Rat)
  deriving DecidableEq, Repr

/-! ### keyword arguments -/

/-- the names of the parameters of `BEEPLinearModelExperiment.__init__` (model.py 90-109) -/
def parameters : List String :=
  ["feature_matrix", "target_matrix", "targets", "model_name", "alphas", "train_feature_drop_nan_thresh",
   "train_sample_drop_nan_thresh", "predict_sample_nan_thresh", "drop_nan_training_targets",
   "impute_strategy", "kfold", "max_iter", "tol", "l1_ratio", "homogenize_features"]

/-- a keyword argument, if given (model.py:90-208) -/
def arg (kw : List (String × Val)) (n : String) : Option Val := (kw.find? (fun p => p.1 == n)).map Prod.snd

/-- a number, with the default of the signature (model.py:90-208) -/
def numArg (kw : List (String × Val)) (n : String) (d : Rat) : Rat :=
  match arg kw n with
  | some (.num q) => q
  | _ => d

/-- a truth value, with the default of the signature (model.py:90-208) -/
def flagArg (kw : List (String × Val)) (n : String) (d : Bool) : Bool :=
  match arg kw n with
  | some (.flag b) => b
  | _ => d

/-- a list of numbers, if given (model.py:90-208) -/
def numsArg (kw : List (String × Val)) (n : String) : Option (List Rat) :=
  match arg kw n with
  | some (.nums l) => some l
  | _ => none

/-- model.py 82: the names of the estimators -/
def modelOf (s : Str) : ModelName :=
  if s = "elasticnet".toList then .elasticnet
  else if s = "ridge".toList then .ridge
  else if s = "lasso".toList then .lasso
  else .other

/-- model.py 465-472: the names of the strategies -/
def imputeOf (s : Str) : Impute :=
  if s = "median".toList then .median
  else if s = "mean".toList then .mean
  else if s = "none".toList then .none
  else .other

/-- Python's binding of keyword arguments to the constructor: an unknown name is a `TypeError`
(model.py:90-208) -/
def bindArgs (targets : List Str) (model : Str) (kw : List (String × Val)) : Except Err (Args Hyper) :=
  if kw.any (fun p => !(parameters.contains p.1)) then .error .typeError
  else .ok
    { targets := targets
      model := modelOf model
      featThresh := numArg kw "train_feature_drop_nan_thresh" (95 / 100)
      sampleThresh := numArg kw "train_sample_drop_nan_thresh" (1 / 2)
      predictThresh := numArg kw "predict_sample_nan_thresh" (3 / 4)
      dropNanTargets := flagArg kw "drop_nan_training_targets" false
      impute := match arg kw "impute_strategy" with
        | some (.text s) => imputeOf s
        | _ => .median
      homogenize := flagArg kw "homogenize_features" true
      hyper :=
        { alphas := numsArg kw "alphas"
          kfold := numArg kw "kfold" 5
          maxIter := numArg kw "max_iter" 1000000
          tol := numArg kw "tol" (1 / 10000)
          l1Ratio := (numsArg kw "l1_ratio").getD [1 / 1000, 1 / 10, 1 / 2, 7 / 10, 9 / 10, 95 / 100, 1] } }

/-- cmd.py 1253-1270: the keyword arguments of the constructor; those that are `None` are left out -/
def kwargs (o : TrainOpts) (alphas l1 : Option (List Rat)) : List (String × Val) :=
  ([("train_feature_nan_thresh", o.featureThresh.map Val.num),
    ("train_sample_nan_thresh", o.sampleThresh.map Val.num),
    ("predict_sample_nan_thresh", o.predictThresh.map Val.num),
    ("drop_nan_training_targets", some (Val.flag true)),
    ("impute_strategy", o.impute.map Val.text),
    ("kfold", o.kfold.map Val.num),
    ("max_iter", o.maxIter.map Val.num),
    ("tol", o.tol.map Val.num),
    ("l1_ratios", l1.map Val.nums),
    ("homogenize_features", o.homogenize.map Val.flag),
    ("alphas", alphas.map Val.nums)] : List (String × Option Val)).filterMap
      (fun p => p.2.map (fun v => (p.1, v)))

/-- `bool(x)` of a number or `None` (cmd.py:1150-1356) -/
def truthy (x : Option Rat) : Bool :=
  match x with
  | none => false
  | some q => decide (q ≠ 0)

/-- `np.linspace(start, stop, num)` as the command calls it: `--n-alphas` is declared `click.FLOAT`, so
`num` is a float or `None`, and numpy's `operator.index(num)` raises a `TypeError`
(cmd.py:1150-1356) -/
def npLinspace (_start _stop _num : Option Rat) : Except Err (List Rat) := .error .typeError

/-- cmd.py 1244-1248 -/
def alphaGrid (lower upper n : Option Rat) : Except Err (Option (List Rat)) :=
  let ps := [lower, upper, n]
  if ps.any truthy && !ps.all truthy then
    match npLinspace lower upper n with
    | .ok l => .ok (some l)
    | .error e => .error e
  else .ok none

/-- the texts between commas (cmd.py:1150-1356) -/
def commas : Str → List Str
  | [] => [[]]
  | ',' :: s => [] :: commas s
  | c :: s => match commas s with
    | [] => [[c]]
    | p :: ps => (c :: p) :: ps

/-- cmd.py 1250-1251; stripping the text is left to `float`, which ignores blanks -/
def l1List (w : World) (s : Option Str) : Except Err (Option (List Rat)) :=
  match s with
  | none => .ok none
  | some s => match (commas s).mapM w.float with
    | .ok l => .ok (some l)
    | .error e => .error e

/-! ### beep train -/

/-- `BEEPFeatureMatrix.from_json_file` and `.matrix`: other objects have no such attribute
(cmd.py:1150-1356) -/
def loadMatrix (c : Content) : Except Err Table :=
  match c with
  | .matrix t => .ok t
  | .other => .error .valueError
  | _ => .error .attributeError

/-- the body of the `try`, cmd.py 1292-1317 -/
def trainBody (w : World) (o : TrainOpts) (kw : List (String × Val)) (cf ct : Content) :
    Except Err (Exp Hyper × Option Results) := do
  let fm ← loadMatrix cf
  let tm ← loadMatrix ct
  let a ← bindArgs o.targets o.model kw
  let e ← construct w.env a fm tm
  match o.frac with
  | some q =>
    let r ← trainAndScore w.env w.split q e
    .ok (r.1, some { training := r.2.1, test := r.2.2, fraction := q })
  | none =>
    let r ← trainScored w.env e e.X e.y
    .ok (r.1, none)

/-- `dumpfn(object, path)`: the files afterwards, or the exception (cmd.py:1150-1356, 1391-1509) -/
def dump (w : World) (fs : Files Content) (p : Str) (c : Content) : Except Err (Files Content) :=
  match w.refuses p with
  | some e => .error e
  | none => .ok (fs.write p c)

/-- cmd.py 1352-1356: the status file, if asked for; the files afterwards and how the command ends -/
def report {S : Type} (w : World) (ctx : Ctx) (toContent : S → Content) (st : S) (fs : Files Content) :
    Files Content × Except Err S :=
  match ctx.status with
  | none => (fs, .ok st)
  | some p => match dump w fs p (toContent st) with
    | .error e => (fs, .error e)
    | .ok fs' => (fs', .ok st)

/-- cmd.py 1341-1345: where the model goes -/
def outputPath (w : World) (ctx : Ctx) (output : Option Str) : Str :=
  match output with
  | some p => if p = [] then Batch.join ctx.cwd w.defaultName else w.abspath p
  | none => Batch.join ctx.cwd w.defaultName

/-- cmd.py 1333-1349: the trained model is saved -/
def saveModel (w : World) (ctx : Ctx) (o : TrainOpts) (st : TrainStatus) (fs : Files Content) (e : Exp Hyper)
    (r : Option Results) : Files Content × Except Err TrainStatus :=
  match asDict e with
  | .error err => (fs, .error err)
  | .ok s => match dump w fs (outputPath w ctx o.output) (.model s) with
    | .error err => (fs, .error err)
    | .ok fs' =>
      report w ctx .trainStatus
        { st with results := r, created := true, output := some (outputPath w ctx o.output) } fs'

/-- the command `beep train` (cmd.py 1150-1356): the files afterwards; the status, or the exception that
leaves the command -/
def train (w : World) (ctx : Ctx) (o : TrainOpts) (fs : Files Content) :
    Files Content × Except Err TrainStatus :=
  match alphaGrid o.alphaLower o.alphaUpper o.nAlphas, l1List w o.l1Ratios with
  | .error e, _ => (fs, .error e)
  | _, .error e => (fs, .error e)
  | .ok alphas, .ok l1 =>
    match fs (w.abspath o.featureFile), fs (w.abspath o.targetFile) with
    | some cf, some ct =>
      let st : TrainStatus := { features := w.abspath o.featureFile, targets := w.abspath o.targetFile,
                                featuresMd5 := w.md5 cf, targetsMd5 := w.md5 ct }
      match trainBody w o (kwargs o alphas l1) cf ct with
      | .ok (e, r) => saveModel w ctx o st fs e r
      | .error err =>
        if ctx.haltOnError then (fs, .error err)
        else report w ctx .trainStatus { st with traceback := some err } fs
    | _, _ => (fs, .error .fileNotFound)

/-! ### beep predict -/

/-- the options of `beep predict` (cmd.py 1364-1397) -/
structure PredictOpts where
  modelFile : Str
  featureFile : Str
  output : Option Str := none
  predictThresh : Option Rat := none

/-- `BEEPLinearModelExperiment.from_json_file` followed by a call of `predict`: other objects have no
such attribute (cmd.py:1391-1509) -/
def loadModel (w : World) (c : Content) : Except Err (Exp Hyper) :=
  match c with
  | .model s => fromDict w.env s
  | .other => .error .valueError
  | _ => .error .attributeError

/-- cmd.py 1469-1470 -/
def overrideThresh (t : Option Rat) (e : Exp Hyper) : Exp Hyper :=
  match t with
  | some q => if q ≠ 0 then { e with args := { e.args with predictThresh := q } } else e
  | none => e

/-- the body of the `try`, cmd.py 1458-1481 -/
def predictBody (w : World) (o : PredictOpts) (cm cf : Content) :
    Except Err (List Str × List (Str × List Rat)) := do
  let X ← loadMatrix cf
  let e ← loadModel w cm
  let r ← (predict (overrideThresh o.predictThresh e) X none).2
  .ok (e.args.targets, r.1)

/-- does the name end in `.json` (cmd.py:1150-1356, 1391-1509) -/
def endsJson (s : Str) : Bool := (".json".toList).isSuffixOf s

/-- cmd.py 1425: the name must end in `.json` -/
def badName (output : Option Str) : Bool :=
  match output with
  | some p => decide (p ≠ []) && !endsJson p
  | none => false

/-- the command `beep predict` (cmd.py 1391-1509) -/
def predictCmd (w : World) (ctx : Ctx) (o : PredictOpts) (fs : Files Content) :
    Files Content × Except Err PredictStatus :=
  if badName o.output then (fs, .error .valueError)
  else match fs (w.abspath o.modelFile), fs (w.abspath o.featureFile) with
    | some cm, some cf =>
      let out := outputPath w ctx o.output
      let st : PredictStatus := { model := w.abspath o.modelFile, features := w.abspath o.featureFile,
                                  modelMd5 := w.md5 cm, featuresMd5 := w.md5 cf }
      match predictBody w o cm cf with
      | .ok p => match dump w fs out (.predictions p.1 p.2) with
        | .error err => (fs, .error err)
        | .ok fs' => report w ctx .predictStatus { st with created := true, output := some out } fs'
      | .error err =>
        if ctx.haltOnError then (fs, .error err)
        else report w ctx .predictStatus { st with traceback := some err } fs
    | _, _ => (fs, .error .fileNotFound)

end Beep.TrainCmd
