import Verif.Model.LinearModel
import Verif.Spec.Splitter
/-
Vocabulary for the statements about linear model experiments: C49, C51-C53.  The fractions are those
of Spec/Splitter.
-/
namespace Beep.Spec.LinearModel
open Beep Table LinearModel Spec.Splitter

variable {H : Type}

/-- the matrix with the feature names the experiment works with -/
def named (homogenize : Bool) (m : Table) : Table := if homogenize then m.rename stripLast else m

/-- the sample has at least the threshold fraction of the training features -/
def Reaches (e : Exp H) (X : Table) (r : Str) : Prop :=
  e.args.predictThresh ≤ sampleFraction X e.featureLabels r

instance (e : Exp H) (X : Table) (r : Str) : Decidable (Reaches e X r) :=
  inferInstanceAs (Decidable (_ ≤ _))

/-- an experiment trained on all its data or on a non empty part of it -/
def Trained (env : Env H) (e : Exp H) : Prop :=
  ∃ (a : Args H) (fm tm : Table) (e0 : Exp H), construct env a fm tm = .ok e0 ∧
    (train env e0 = .ok e ∨ ∃ picked, picked ≠ [] ∧ (∀ r ∈ picked, r ∈ e0.X.rows) ∧
      trainSubset env e0 picked = .ok e)

/-- the frame has exactly the training features as columns -/
def Exactly (e : Exp H) (X : Table) : Prop := X.names.Perm e.featureLabels

instance (e : Exp H) (X : Table) : Decidable (Exactly e X) := List.decidablePerm _ _

end Beep.Spec.LinearModel
