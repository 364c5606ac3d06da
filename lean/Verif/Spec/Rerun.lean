import Verif.Spec.Batch
import Verif.Model.Featurize

/-!
# Killing the command `beep structure` and starting it again
-/

namespace Beep.Spec.Rerun

open Beep Batch

variable {D C : Type}

/-- The file is valid and can be structured: the command gets as far as opening the output. -/
def Opens (env : Env D C) (o : Opts) (fs : Files C) (f : Str) : Prop :=
  o.validationOnly = false ∧ ∃ c d why d', fs f = some c ∧ env.load f c = .ok d ∧
    env.validate d = .ok (true, why) ∧ env.structured d = .ok d'

/-- The command goes on to the next file after this outcome. -/
def GoesOn (o : Opts) : Option Exc → Prop
  | none => True
  | some .interrupt => False
  | some (.other _) => o.haltOnError = false

/-- The files on disk when the command is killed (no handler runs): before or after any file, while a
file is read, validated or structured, or while an output is written, with anything at all in the
unfinished output.  One step is one file of the loop, cmd.py:542-609. -/
inductive Killed (env : Env D C) (o : Opts) : List (Str × Str) → Files C → Files C → Prop
  | now (jobs : List (Str × Str)) (fs : Files C) : Killed env o jobs fs fs
  | saving (f out : Str) (jobs : List (Str × Str)) (fs : Files C) (c : C) :
      Opens env o fs f → Killed env o ((f, out) :: jobs) fs (fs.write out c)
  | later (f out : Str) (jobs : List (Str × Str)) (fs fs' fs'' : Files C) (r : OpResult)
      (e : Option Exc) : attempt env o.validationOnly fs f out = (r, fs', e) → GoesOn o e →
      Killed env o jobs fs' fs'' → Killed env o ((f, out) :: jobs) fs fs''

/-- Killed any number of times, each time started again. -/
inductive KilledOften (env : Env D C) (o : Opts) (jobs : List (Str × Str)) : Files C → Files C → Prop
  | never (fs : Files C) : KilledOften env o jobs fs fs
  | again (fs fs' fs'' : Files C) : Killed env o jobs fs fs' → KilledOften env o jobs fs' fs'' →
      KilledOften env o jobs fs fs''

/-- Two runs of `beep featurize`, started from `fs` and `fs'`, end the same way: the same exception, or
the same status, hyperparameters, matrix and report, and every file either the same or as each run
found it. -/
def SameEnd {V M : Type} (fs fs' : Files C) :
    Except Featurize.Stop (Featurize.Result C V M) → Except Featurize.Stop (Featurize.Result C V M) → Prop
  | .error e, .error e' => e = e'
  | .ok r, .ok r' => r.status = r'.status ∧ r.hyperparameters = r'.hyperparameters ∧
      r.matrix = r'.matrix ∧ r.report = r'.report ∧
      ∀ p, r.files p = r'.files p ∨ (r.files p = fs p ∧ r'.files p = fs' p)
  | _, _ => False

end Beep.Spec.Rerun
