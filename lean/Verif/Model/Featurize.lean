import Verif.Model.Batch
/-
The command `beep featurize` of `beep/cmd.py`: choice of featurizers, the loops over files and
featurizers, the feature matrix, the report.
-/
namespace Beep.Featurize
open Beep
open Beep.Batch (Exc Files join basename)

/-- what `fclass(...)`, `f.validate()` and `f.create_features()` (cmd.py:861-880) do:
an exception before the verdict, a negative verdict, an exception while features are created,
or the created features -/
inductive Outcome (B : Type) where
  | refused (e : Exc)
  | invalid (why : Str)
  | failed (e : Exc)
  | built (b : B)
  deriving DecidableEq, Repr

/-- the calls the command makes.  `D` is a datapath, `C` the contents of a file, `F` a featurizer
class, `V` a hyperparameter value, `B` a table of features, `M` a feature matrix
(cmd.py:707-993). -/
structure Env (D C F V B M : Type) where
  /-- `os.path.abspath` -/
  abspath : Str → Str
  /-- `hashlib.md5(...).hexdigest()` -/
  md5 : C → Str
  /-- `auto_load_processed` -/
  load : Str → C → Except Exc D
  /-- `fclass.__name__` -/
  name : F → Str
  /-- `fclass.DEFAULT_HYPERPARAMETERS` -/
  defaults : F → Dict Str V
  /-- applying a featurizer.  It gets the datapath and the dictionary of hyperparameters by
  reference, so both may have changed afterwards. -/
  apply : F → Dict Str V → D → Outcome B × Dict Str V × D
  /-- `dumpfn(f, path)`: what it leaves in the file, and the exception it raises -/
  dump : F → Dict Str V → B → C × Option Exc
  /-- `BEEPFeatureMatrix(bfs)` and writing it to the output file -/
  matrix : List (F × Dict Str V × B) → Except Exc M

/-- the options of the command and of its context (cmd.py:707-993) -/
structure Opts where
  /-- already absolute; the working directory if not given -/
  outputDir : Str
  saveIntermediates : Bool := false
  haltOnError : Bool := false

/-- `op_subresult`, cmd.py:847-856.  `walltime` is left out; `hyperparameters` is a reference to the
dictionary of the featurizer, so what is written at the end is its final state: see `Result.hyperparameters`. -/
structure SubResult where
  featurizer : Str
  output : Option Str := none
  valid : Bool := false
  featurized : Bool := false
  traceback : Option Exc := none
  md5 : Option Str := none
  deriving DecidableEq, Repr

/-- `op_result`, cmd.py:834-838, without `walltime` -/
structure FileResult where
  md5 : Str
  featurizers : List SubResult
  deriving DecidableEq, Repr

variable {D C F V B M : Type}

/-- `hps.update(fclass_params)`, cmd.py:816-818 -/
def update (d : Dict Str V) : List (Str × V) → Dict Str V
  | [] => d
  | (k, v) :: l => update (d.set k v) l

/-- cmd.py:771-777: which names are applied with default hyperparameters.  `feats` and `targets` are
the names of the native feature and target classes. -/
def chosen (feats targets names : List Str) : List Str :=
  if "all_features".toList ∈ names then feats
  else if "all_targets".toList ∈ names then targets
  else names

/-- cmd.py:796-819: from names to classes with complete hyperparameters.  `find` is the lookup in the
table of native classes followed by the import of other classes; an unknown name ends the command.
`custom` are the parsed `--featurize-with-hyperparams`. -/
def select (env : Env D C F V B M) (find : Str → Except Exc F) :
    List (Str × Option (Dict Str V)) → Except Exc (List (F × Dict Str V))
  | [] => .ok []
  | (n, p) :: l => match find n with
    | .error e => .error e
    | .ok f => match select env find l with
      | .error e => .error e
      | .ok rest => .ok ((f, match p with
        | none => env.defaults f
        | some p => update (env.defaults f) p) :: rest)

/-- the whole list of cmd.py:771-819 -/
def plan (env : Env D C F V B M) (find : Str → Except Exc F) (feats targets names : List Str)
    (custom : List (Str × Dict Str V)) : Except Exc (List (F × Dict Str V)) :=
  select env find ((chosen feats targets names).map (fun n => (n, none)) ++ custom.map (fun p => (p.1, some p.2)))

/-- how the command stops early: an exception that leaves it, or Ctrl-C (cmd.py:707-993) -/
inductive Stop where
  | raised (e : Exc)
  | exited
  deriving DecidableEq, Repr

/-- name of an intermediate file, cmd.py:886-887 -/
def intermediate (env : Env D C F V B M) (o : Opts) (file : Str) (f : F) : Str :=
  join o.outputDir (env.name f ++ '-' :: basename file)

/-- the body of the `try` (cmd.py:859-896): the entry, the features appended to `bfs`, the
hyperparameters, the datapath, the files, the exception that ended it -/
def attempt (env : Env D C F V B M) (o : Opts) (file : Str) (f : F) (h : Dict Str V) (d : D) (fs : Files C) :
    SubResult × Option B × Dict Str V × D × Files C × Option Exc :=
  let r : SubResult := { featurizer := env.name f }
  match env.apply f h d with
  | (.refused e, h', d') => (r, none, h', d', fs, some e)
  | (.invalid why, h', d') => (r, none, h', d', fs, some (.other why))
  | (.failed e, h', d') => ({ r with valid := true }, none, h', d', fs, some e)
  | (.built b, h', d') =>
    let r := { r with valid := true, featurized := true }
    if o.saveIntermediates then
      let path := intermediate env o file f
      match env.dump f h' b with
      | (c, some e) => (r, some b, h', d', fs.write path c, some e)
      | (c, none) => ({ r with output := some path, md5 := some (env.md5 c) }, some b, h', d', fs.write path c, none)
    else (r, some b, h', d', fs, none)

/-- the inner loop (cmd.py:845-915) over the featurizers of one file: the entries, for every
featurizer the features it appended, the hyperparameters, the files -/
def applyAll (env : Env D C F V B M) (o : Opts) (file : Str) :
    List (F × Dict Str V) → D → Files C → Except Stop (List SubResult × List (Option B) × List (Dict Str V) × Files C)
  | [], _, fs => .ok ([], [], [], fs)
  | (f, h) :: l, d, fs =>
    match attempt env o file f h d fs with
    | (_, _, _, _, _, some .interrupt) => .error .exited
    | (r, b, h', d', fs', some e) =>
      if o.haltOnError then .error (.raised e)
      else match applyAll env o file l d' fs' with
        | .error s => .error s
        | .ok (rs, bs, hs, fs'') => .ok ({ r with traceback := some e } :: rs, b :: bs, h' :: hs, fs'')
    | (r, b, h', d', fs', none) =>
      match applyAll env o file l d' fs' with
      | .error s => .error s
      | .ok (rs, bs, hs, fs'') => .ok (r :: rs, b :: bs, h' :: hs, fs'')

/-- where the outer loop is: `status_json["files"]`, the features in `bfs` (for every file and
featurizer), the dictionaries of hyperparameters, the files (cmd.py:707-993) -/
structure State (C F V B : Type) where
  status : Dict Str FileResult
  features : List (List (Option B))
  plan : List (F × Dict Str V)
  files : Files C

/-- one file (cmd.py:830-918): hashing and loading are outside any `try` -/
def oneFile (env : Env D C F V B M) (o : Opts) (file : Str) (s : State C F V B) : Except Stop (State C F V B) :=
  match s.files file with
  | none => .error (.raised (.other "FileNotFoundError".toList))
  | some c => match env.load file c with
    | .error e => .error (.raised e)
    | .ok d => match applyAll env o file s.plan d s.files with
      | .error e => .error e
      | .ok (rs, bs, hs, fs) =>
        .ok { status := Dict.set s.status file { md5 := env.md5 c, featurizers := rs },
              features := s.features ++ [bs], plan := (s.plan.map Prod.fst).zip hs, files := fs }

/-- the outer loop (cmd.py:830-919) -/
def loop (env : Env D C F V B M) (o : Opts) : List Str → State C F V B → Except Stop (State C F V B)
  | [], s => .ok s
  | f :: l, s => match oneFile env o f s with
    | .error e => .error e
    | .ok s' => loop env o l s'

/-- `bfs`: the featurizers whose features were created, in order of files and then featurizers.  They
refer to the dictionaries of hyperparameters in their final state (cmd.py:707-993). -/
def bfs (s : State C F V B) : List (F × Dict Str V × B) :=
  s.features.flatMap (fun row => (s.plan.zip row).filterMap (fun p => p.2.map (fun b => (p.1.1, p.1.2, b))))

/-- the report (cmd.py:955-970) -/
structure Report where
  all : List (Str × Nat) := []
  some : List (Str × Nat) := []
  none : List (Str × Nat) := []
  deriving DecidableEq, Repr

/-- `sum(feats_succeeded)`, cmd.py:957-962 -/
def nSuccess (r : FileResult) : Nat := (r.featurizers.filter SubResult.featurized).length

/-- the loop over the status (cmd.py:955-970); `n` is the number of featurizers -/
def report (n : Nat) : Dict Str FileResult → Report
  | [] => {}
  | (f, r) :: st =>
    let x := report n st
    if nSuccess r = n then { x with all := (f, nSuccess r) :: x.all }
    else if nSuccess r = 0 then { x with none := (f, nSuccess r) :: x.none }
    else { x with some := (f, nSuccess r) :: x.some }

/-- what the command leaves behind when it reaches its end (cmd.py:707-993) -/
structure Result (C V M : Type) where
  status : Dict Str FileResult
  /-- the dictionary shown as `hyperparameters` for each featurizer, in every file -/
  hyperparameters : List (Dict Str V)
  matrix : Except Exc M
  report : Report
  files : Files C

/-- the command `beep featurize` from the planned featurizers on (cmd.py:823-993).  The matrix and the
status file are not put among `files`. -/
def featurize (env : Env D C F V B M) (o : Opts) (files : List Str) (plan : List (F × Dict Str V)) (fs : Files C) :
    Except Stop (Result C V M) :=
  match loop env o (files.map env.abspath) { status := [], features := [], plan := plan, files := fs } with
  | .error e => .error e
  | .ok s =>
    let m := env.matrix (bfs s)
    match o.haltOnError, m with
    | true, .error e => .error (.raised e)
    | _, _ => .ok { status := s.status, hyperparameters := s.plan.map Prod.snd, matrix := m,
                    report := report plan.length s.status, files := s.files }

/-! ### the parts of two native featurizers that change what they are given -/

/-- `DeltaQFastCharge.create_features`, beep/features/core.py:541-543: the dictionary is overwritten -/
def deltaQParams (forty : V) (h : Dict Str V) : Dict Str V := h.set "n_nominal_cycles".toList forty

/-- a row of `diagnostic_data`: test time and cycle index (core.py:44-49, 358-363) -/
abbrev DiagRow := Rat × Int

/-- `HPPCResistanceVoltageFeatures.create_features` and `DiagnosticSummaryStats.create_features`,
beep/features/core.py:44-49 and 358-363: the diagnostic data of the datapath are replaced by the rows that
are not late rows of early cycles.  The second filter (50-53), for steps without any time, is left out. -/
def dropFinal (testTime : Rat) (cycleIndex : Int) (rows : List DiagRow) : List DiagRow :=
  rows.filter (fun r => ¬ (testTime < r.1 ∧ r.2 < cycleIndex))

end Beep.Featurize
