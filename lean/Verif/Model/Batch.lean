import Verif.Model.Dash
/-
The command `beep structure` of `beep/cmd.py`: output names, the loop over the files, the report.
-/
namespace Beep.Batch
open Beep

/-- an exception that leaves a call: Ctrl-C or anything else (cmd.py:370-638) -/
inductive Exc where
  | interrupt
  | other (what : Str)
  deriving DecidableEq, Repr

/-- the part of `s` before the last dot and the part from it on
(used by add_suffix, cmd.py:102-124) -/
def lastDot : Str → Option (Str × Str)
  | [] => none
  | c :: s => match lastDot s with
    | some (a, b) => some (c :: a, b)
    | none => if c = '.' then some ([], c :: s) else none

/-- `os.path.splitext` of a name without directory: leading dots do not begin an extension
(cmd.py:102-124) -/
def splitext (s : Str) : Str × Str :=
  match lastDot s with
  | some (a, b) => if a.any (· ≠ '.') then (a, b) else (s, [])
  | none => (s, [])

/-- `os.path.basename`: what follows the last `/` (cmd.py:102-124) -/
def basename : Str → Str
  | [] => []
  | c :: s => if '/' ∈ s then basename s else if c = '/' then s else c :: s

/-- `os.path.join(dir, name)` (cmd.py:102-124) -/
def join (dir name : Str) : Str :=
  if name.head? = some '/' then name
  else if dir = [] ∨ dir.getLast? = some '/' then dir ++ name else dir ++ '/' :: name

/-- `add_suffix` (cmd.py:102-124) -/
def addSuffix (fullPath dir suffix ext : Str) : Str :=
  let b := splitext (basename fullPath)
  let e := if ext = [] then b.2 else ext
  join dir (b.1 ++ suffix ++ e)

/-- the calls the loop makes.  `D` is a datapath, `C` the contents of a file.  Calls are functions of
their arguments: a datapath does not remember earlier files (cmd.py:370-638). -/
structure Env (D C : Type) where
  /-- `os.path.abspath` -/
  abspath : Str → Str
  /-- `hashlib.md5(...).hexdigest()` -/
  md5 : C → Str
  /-- `auto_load` -/
  load : Str → C → Except Exc D
  /-- `dp.schema` -/
  schema : D → Str
  /-- `dp.validate()` -/
  validate : D → Except Exc (Bool × Str)
  /-- `dp.structure(**params)`, or with `--automatic` `dp.autostructure(...)`, see `automatic` -/
  structured : D → Except Exc D
  /-- `dp.structuring_parameters` -/
  parameters : D → Str
  /-- `dp.to_json_file(path)`: what it leaves in the file, and the exception it raises -/
  save : Str → D → C × Option Exc

/-- the calls with `--automatic` (cmd.py:577-582): no class of `beep/structure` has a method
`autostructure`, looking it up raises an `AttributeError` -/
def Env.automatic {D C : Type} (env : Env D C) : Env D C :=
  { env with structured := fun _ => .error (.other "AttributeError".toList) }

/-- the options of the command and of its context (cmd.py:370-638) -/
structure Opts where
  outputDir : Option Str := none
  /-- `()` when not given -/
  outputFilenames : List Str := []
  cwd : Str
  validationOnly : Bool := false
  haltOnError : Bool := false

/-- the entry of one file in the status; `walltime` is left out (cmd.py:370-638) -/
structure OpResult where
  validated : Bool := false
  schema : Option Str := none
  structured : Bool := false
  output : Option Str := none
  traceback : Option Exc := none
  rawMd5 : Option Str := none
  parameters : Option Str := none
  processedMd5 : Option Str := none
  deriving DecidableEq, Repr

/-- the files on disk (cmd.py:370-638) -/
abbrev Files (C : Type) := Str → Option C

variable {D C : Type}

/-- `open(path, "w")` and its contents (cmd.py:370-638) -/
def Files.write (fs : Files C) (p : Str) (c : C) : Files C := fun q => if q = p then some c else fs q

/-- cmd.py:575-592: structuring, saving and hashing after a successful validation -/
def finish (env : Env D C) (out : Str) (d : D) (r : OpResult) (fs : Files C) :
    OpResult × Files C × Option Exc :=
  match env.structured d with
  | .error e => (r, fs, some e)
  | .ok d' => match env.save out d' with
    | (c, some e) => (r, fs.write out c, some e)
    | (c, none) =>
      ({ r with structured := true, parameters := some (env.parameters d'), output := some out,
                processedMd5 := some (env.md5 c) }, fs.write out c, none)

/-- the body of the `try` (cmd.py:557-592): the entry so far, the files, the exception that ended it -/
def attempt (env : Env D C) (validationOnly : Bool) (fs : Files C) (f out : Str) :
    OpResult × Files C × Option Exc :=
  match fs f with
  | none => ({}, fs, some (.other "FileNotFoundError".toList))
  | some c =>
    let r : OpResult := { rawMd5 := some (env.md5 c) }
    match env.load f c with
    | .error e => (r, fs, some e)
    | .ok d =>
      let r := { r with schema := some (env.schema d) }
      match env.validate d with
      | .error e => (r, fs, some e)
      | .ok (ok, why) =>
        let r := { r with validated := ok }
        if ok then
          if validationOnly then (r, fs, none) else finish env out d r fs
        else (r, fs, some (.other why))

/-- how the loop over the files ended: with a status, with a re-raised exception, or because of Ctrl-C
(cmd.py:370-638) -/
inductive End (C : Type) where
  | done (status : Dict Str OpResult) (fs : Files C)
  | raised (e : Exc) (fs : Files C)
  | exited (fs : Files C)

/-- the loop (cmd.py:542-609).  The second component lists the files that were processed.
`click.Context.exit(1)` ends the program. -/
def loop (env : Env D C) (o : Opts) : List (Str × Str) → Dict Str OpResult → Files C → End C × List Str
  | [], st, fs => (.done st fs, [])
  | (f, out) :: jobs, st, fs =>
    match attempt env o.validationOnly fs f out with
    | (_, fs', some .interrupt) => (.exited fs', [f])
    | (r, fs', some e) =>
      if o.haltOnError then (.raised e fs', [f])
      else
        let (x, l) := loop env o jobs (Dict.set st f { r with traceback := some e }) fs'
        (x, f :: l)
    | (r, fs', none) =>
      let (x, l) := loop env o jobs (Dict.set st f r) fs'
      (x, f :: l)

/-- cmd.py:491-519: the output file of every input file -/
def outputs (env : Env D C) (o : Opts) (files : List Str) : Except Err (List Str) :=
  match o.outputDir with
  | some dir =>
    .ok (files.map (fun f => addSuffix f (env.abspath dir) "_structured".toList ".json.gz".toList))
  | none =>
    if o.outputFilenames ≠ [] then
      if files.length = o.outputFilenames.length then .ok (o.outputFilenames.map env.abspath)
      else .error .valueError
    else .ok (files.map (fun f => addSuffix f o.cwd "_structured".toList ".json.gz".toList))

/-- the report (cmd.py:611-631) -/
structure Report where
  succeeded : List Str := []
  failed : List Str := []
  invalid : List Str := []
  deriving DecidableEq, Repr

/-- the loop over the status (cmd.py:611-620) -/
def report : Dict Str OpResult → Report
  | [] => {}
  | (f, r) :: st =>
    let x := report st
    if r.validated && r.structured then { x with succeeded := f :: x.succeeded }
    else if r.validated && !r.structured then { x with failed := f :: x.failed }
    else { x with invalid := f :: x.invalid }

/-- the command `beep structure` on local files (cmd.py:482-638): the status and the report written at
the end, if the end is reached, and the files on disk.  Fetching from S3 (cmd.py:438-480) is in `Model/Transfer`. -/
def structure_ (env : Env D C) (o : Opts) (files : List Str) (fs : Files C) :
    Except Err (End C × List Str) :=
  let files := files.map env.abspath
  if files.any (fun f => (fs f).isNone) then .error .fileNotFound
  else match outputs env o files with
    | .error e => .error e
    | .ok outs => .ok (loop env o (files.zip outs) [] fs)

end Beep.Batch
