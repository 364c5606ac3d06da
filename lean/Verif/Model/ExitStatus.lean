import Verif.Model.Featurize
/-
The exit status of `beep structure` and `beep featurize`: beep/cmd.py and the version of click that
/repo/requirements.txt:18 asks for (8.1.7).
-/
namespace Beep.ExitStatus
open Beep
open Beep.Batch (Exc Files)

/-- how a command function is left: it returns, it raises `click.exceptions.Exit`, or it raises
something else (cmd.py:370-638, 707-993) -/
inductive Ending where
  | returned
  | exit (code : Nat)
  | raised
  deriving DecidableEq, Repr

/-- `click.Context.exit(self, code=0)` raises `Exit(code)`.  cmd.py:596, 811, 819, 902 call it on the
class as `click.Context.exit(1)`, so 1 is `self` and `code` keeps its default. -/
def contextExit (_self : Nat) (code : Nat := 0) : Ending := .exit code

/-- what the shell sees: `Exit` becomes its code; any other exception, Ctrl-C included, becomes 1
(click `BaseCommand.main`, called by cmd.py:177-246) -/
def processStatus : Ending → Nat
  | .returned => 0
  | .exit code => code
  | .raised => 1

variable {D C F V B M : Type}

/-- the end of `beep structure`: the status file is written last, if asked for; `saved` is the outcome of
that (cmd.py:482-638) -/
def structureEnding (r : Except Err (Batch.End C × List Str)) (saved : Except Exc Unit) : Ending :=
  match r with
  | .error _ => .raised
  | .ok (.raised _ _, _) => .raised
  | .ok (.exited _, _) => contextExit 1
  | .ok (.done _ _, _) => match saved with
    | .ok _ => .returned
    | .error _ => .raised

/-- the exit status of `beep structure` (cmd.py:370-638) -/
def structureStatus (env : Batch.Env D C) (o : Batch.Opts) (files : List Str) (fs : Files C)
    (saved : Except Exc Unit) : Nat :=
  processStatus (structureEnding (Batch.structure_ env o files fs) saved)

/-- the classes that can be found: the native ones by name, others by import, with the answer to
`issubclass(cls, BEEPFeaturizer)` (cmd.py:757-769, 796-820) -/
structure Library (F : Type) where
  native : Str → Option F
  imported : Str → Except Exc (F × Bool)

/-- cmd.py:802-820 -/
def lookup (lib : Library F) (n : Str) : Except Ending F :=
  match lib.native n with
  | some f => .ok f
  | none =>
    if '.' ∉ n then .error (contextExit 1)
    else match lib.imported n with
      | .error _ => .error .raised
      | .ok (f, true) => .ok f
      | .ok (_, false) => .error (contextExit 1)

/-- cmd.py:796-825 -/
def resolve (env : Featurize.Env D C F V B M) (lib : Library F) :
    List (Str × Option (Dict Str V)) → Except Ending (List (F × Dict Str V))
  | [] => .ok []
  | (n, p) :: l => match lookup lib n with
    | .error e => .error e
    | .ok f => match resolve env lib l with
      | .error e => .error e
      | .ok rest => .ok ((f, match p with
        | none => env.defaults f
        | some p => Featurize.update (env.defaults f) p) :: rest)

/-- the end of `beep featurize` (cmd.py:707-993) -/
def featurizeEnding (env : Featurize.Env D C F V B M) (lib : Library F) (o : Featurize.Opts) (files : List Str)
    (names : List (Str × Option (Dict Str V))) (fs : Files C) (saved : Except Exc Unit) : Ending :=
  match resolve env lib names with
  | .error e => e
  | .ok plan => match Featurize.featurize env o files plan fs with
    | .error (.raised _) => .raised
    | .error .exited => contextExit 1
    | .ok _ => match saved with
      | .ok _ => .returned
      | .error _ => .raised

/-- the exit status of `beep featurize` (cmd.py:707-993) -/
def featurizeStatus (env : Featurize.Env D C F V B M) (lib : Library F) (o : Featurize.Opts) (files : List Str)
    (names : List (Str × Option (Dict Str V))) (fs : Files C) (saved : Except Exc Unit) : Nat :=
  processStatus (featurizeEnding env lib o files names fs saved)

end Beep.ExitStatus
