import Verif.Model.Batch
/-
Vocabulary for C54 and C55.
-/
namespace Beep.Spec.Batch
open Beep Batch

variable {D C : Type}

/-- the file can be read and passes validation -/
def Valid (env : Env D C) (fs : Files C) (f : Str) : Prop :=
  ∃ c d why, fs f = some c ∧ env.load f c = .ok d ∧ env.validate d = .ok (true, why)

/-- the file is valid, can be structured, and its structured form `c'` is written to `out` -/
def Written (env : Env D C) (fs : Files C) (f out : Str) (c' : C) : Prop :=
  ∃ c d why d', fs f = some c ∧ env.load f c = .ok d ∧ env.validate d = .ok (true, why) ∧
    env.structured d = .ok d' ∧ env.save out d' = (c', none)

/-- everything asked for was done to the file -/
def Succeeds (env : Env D C) (o : Opts) (fs : Files C) (f out : Str) : Prop :=
  if o.validationOnly then Valid env fs f else ∃ c', Written env fs f out c'

/-- nobody presses Ctrl-C -/
structure Undisturbed (env : Env D C) : Prop where
  load : ∀ f c, env.load f c ≠ .error .interrupt
  validate : ∀ d, env.validate d ≠ .error .interrupt
  structured : ∀ d, env.structured d ≠ .error .interrupt
  save : ∀ p d, (env.save p d).2 ≠ some .interrupt

/-- no output goes to an input file -/
def Apart (jobs : List (Str × Str)) : Prop := ∀ p ∈ jobs, ∀ q ∈ jobs, p.2 ≠ q.1

/-- a file listed twice is to be written to the same place -/
def Consistent (jobs : List (Str × Str)) : Prop := ∀ p ∈ jobs, ∀ q ∈ jobs, p.1 = q.1 → p.2 = q.2

/-- the entry of a file says what happened to it -/
structure Tells (env : Env D C) (o : Opts) (fs : Files C) (f out : Str) (r : OpResult) : Prop where
  validated : r.validated = true ↔ Valid env fs f
  structured : r.structured = true ↔ o.validationOnly = false ∧ ∃ c', Written env fs f out c'
  output : r.output = if r.structured then some out else none
  traceback : r.traceback = none ↔ Succeeds env o fs f out
  raw : ∀ c, fs f = some c → r.rawMd5 = some (env.md5 c)
  processed : ∀ c', r.structured = true → Written env fs f out c' → r.processedMd5 = some (env.md5 c')

/-- `s` is the name of the file `p` without its directory and its last extension; dots at the beginning
of the name do not count -/
def IsStem (p s : Str) : Prop :=
  ∃ d e : Str, p = d ++ s ++ e ∧ (d = [] ∨ ∃ d', d = d' ++ ['/']) ∧ '/' ∉ s ++ e ∧
    ((e = [] ∧ ¬ ∃ a b, s = a ++ '.' :: b ∧ ∃ c ∈ a, c ≠ '.') ∨
     (∃ x, e = '.' :: x ∧ '.' ∉ x ∧ ∃ c ∈ s, c ≠ '.'))

end Beep.Spec.Batch
