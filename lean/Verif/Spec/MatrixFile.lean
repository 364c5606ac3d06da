import Verif.Model.MatrixFile
import Verif.Spec.Features
/-
Vocabulary for the statements about saved feature matrices.
-/
namespace Beep.Spec.MatrixFile
open Beep Text Features MatrixFile Spec.Features

/-- a value with no tuple in it, at any depth -/
inductive Plain : Value → Prop where
  | none : Plain .none
  | bool (b : Bool) : Plain (.bool b)
  | num (s : Str) : Plain (.num s)
  | text (s : Str) : Plain (.text s)
  | list (xs : List Value) : (∀ x ∈ xs, Plain x) → Plain (.list xs)

/-- a featurizer of a known class that has its required hyperparameters and some features -/
def Proper {V : Type} (classes : Str → Option (Dict Str Value)) (b : Made V) : Prop :=
  (∃ defaults, classes b.cls = some defaults ∧ ∀ k ∈ Dict.keys defaults, k ∈ Dict.keys b.obj.hyperparameters) ∧
  ∃ fr, b.obj.features = some fr ∧ GoodFrame fr ∧ fr.columns ≠ []

/-- two featurizers that agree in all that is saved, except for their metadata -/
def Same {V : Type} (a b : Made V) : Prop :=
  b.cls = a.cls ∧ b.obj.features = a.obj.features ∧ b.obj.hyperparameters = a.obj.hyperparameters ∧
    b.obj.paths = a.obj.paths ∧ b.obj.linkedId = a.obj.linkedId

end Beep.Spec.MatrixFile
