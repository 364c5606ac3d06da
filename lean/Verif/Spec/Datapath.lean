import Verif.Model.Datapath
/-
Specification vocabulary for datapath histories.
-/
namespace Beep.Spec.Datapath
open Beep.Datapath

/-- `structure` was called in the history and no `unstructure` came after it -/
def StructuredSince (ops : List Op) : Prop :=
  ∃ pre c post, ops = pre ++ Op.structure_ c :: post ∧ ∀ o ∈ post, o ≠ Op.unstructure

/-- the directories are absolute, as on any POSIX installation -/
structure EnvOK (env : Env) : Prop where
  schemaDir : ∀ s, env.isAbs (env.inSchemaDir s) = true
  abspath : ∀ s, env.isAbs (env.abspath s) = true

/-- the values passed to the setter are configurations some user built -/
def OpOK : Op → Prop
  | .setDiagnostic (.config c) => ∃ m kw, Dict.WF m ∧ Diagnostic.init m kw = .ok c
  | _ => True

/-- a datapath the user can hold: built by the constructor from raw data, then any
sequence of calls that returned normally -/
def Reachable (env : Env) (d : Datapath) : Prop :=
  ∃ raw metadata paths schema d₀ ops,
    construct env (some raw) metadata paths schema true = .ok d₀ ∧
    (∀ o ∈ ops, OpOK o) ∧ run env d₀ ops = .ok d

/-- same table: same columns with the same values, in the same order -/
def SameTable (a b : Option Frame) : Prop := a.map Frame.cols = b.map Frame.cols

/-- the rows of the table, if there is one, are labelled 0, 1, 2, … up to the length of its columns -/
def NumberedFromZero (t : Option Frame) : Prop :=
  ∀ f, t = some f → (f.cols = [] → f.index = []) ∧
    ∀ name col rest, f.cols = (name, col) :: rest →
      f.index.length = col.length ∧ ∀ k, k < col.length → f.index[k]? = some (k : Int)

end Beep.Spec.Datapath
