import Verif.Model.Featurize
/-
Vocabulary for C68.
-/
namespace Beep.Spec.Featurize
open Beep Beep.Featurize
open Beep.Batch (Exc Files)

variable {D C F V B M : Type}

/-- nobody presses Ctrl-C -/
structure Undisturbed (env : Env D C F V B M) : Prop where
  refused : ∀ f h d, (env.apply f h d).1 ≠ .refused .interrupt
  failed : ∀ f h d, (env.apply f h d).1 ≠ .failed .interrupt
  dump : ∀ f h b, (env.dump f h b).2 ≠ some .interrupt

/-- featurizers leave the datapath and the hyperparameters they are given as they were -/
def Preserving (env : Env D C F V B M) : Prop := ∀ f h d, (env.apply f h d).2 = (h, d)

/-- the file holds the structured datapath `d` -/
def Holds (env : Env D C F V B M) (fs : Files C) (file : Str) (d : D) : Prop :=
  ∃ c, fs file = some c ∧ env.load file c = .ok d

/-- the features a featurizer gives for a datapath, if it does -/
def featuresOf (env : Env D C F V B M) (p : F × Dict Str V) (d : D) : Option B :=
  match (env.apply p.1 p.2 d).1 with
  | .built b => some b
  | _ => none

/-- the features are created and, if wanted, saved -/
def Succeeds (env : Env D C F V B M) (o : Opts) (p : F × Dict Str V) (d : D) : Prop :=
  ∃ b, featuresOf env p d = some b ∧ (o.saveIntermediates = true → (env.dump p.1 p.2 b).2 = none)

/-- the entry of a featurizer for a file says what happens when it is applied to the file alone -/
structure Tells (env : Env D C F V B M) (o : Opts) (file : Str) (d : D) (p : F × Dict Str V) (r : SubResult) : Prop where
  name : r.featurizer = env.name p.1
  valid : r.valid = true ↔ (∃ e, (env.apply p.1 p.2 d).1 = .failed e) ∨ ∃ b, featuresOf env p d = some b
  featurized : r.featurized = true ↔ ∃ b, featuresOf env p d = some b
  traceback : r.traceback = none ↔ Succeeds env o p d
  output : r.output = none ↔ ¬ (o.saveIntermediates = true ∧ Succeeds env o p d)
  path : ∀ q, r.output = some q → q = intermediate env o file p.1
  md5 : ∀ b, o.saveIntermediates = true → Succeeds env o p d → featuresOf env p d = some b →
    r.md5 = some (env.md5 (env.dump p.1 p.2 b).1)

/-- what goes into the matrix: everything that was created, files first -/
def created (env : Env D C F V B M) (plan : List (F × Dict Str V)) (ds : List D) : List (F × Dict Str V × B) :=
  ds.flatMap (fun d => plan.filterMap (fun p => (featuresOf env p d).map (fun b => (p.1, p.2, b))))

/-- class names are identifiers -/
def Identifiers (env : Env D C F V B M) : Prop := ∀ f, '-' ∉ env.name f ∧ '/' ∉ env.name f

/-- no intermediate file is written over an input -/
def Apart (env : Env D C F V B M) (o : Opts) (files : List Str) (plan : List (F × Dict Str V)) : Prop :=
  o.saveIntermediates = true → ∀ f ∈ files, ∀ p ∈ plan, ∀ g ∈ files, intermediate env o f p.1 ≠ g

end Beep.Spec.Featurize
