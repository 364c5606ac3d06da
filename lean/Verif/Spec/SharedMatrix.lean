import Verif.Model.SharedMatrix
/-
Vocabulary for the statements about a matrix used several times: C173.
-/
namespace Beep.Spec.SharedMatrix
open Beep Text Table SharedMatrix

variable {H : Type}

/-- the call asks for names without parameter hashes -/
def Homogenizes : Use H → Prop
  | .splitter _ a => a.homogenize = true
  | .experiment _ a _ => a.homogenize = true
  | .predict e h => h = some true ∨ (h = none ∧ e.args.homogenize = true)

/-- the call makes an experiment -/
def IsExperiment : Use H → Prop
  | .experiment .. => True
  | _ => False

/-- the call makes a splitter -/
def IsSplitter : Use H → Prop
  | .splitter .. => True
  | _ => False

/-- same samples, same columns in the same order with the same cells; names may have lost their end -/
def SameButShorterNames (new old : Table) : Prop :=
  new.rows = old.rows ∧ new.cols.length = old.cols.length ∧
  ∀ (i : Nat) (c : Col), old.cols[i]? = some c → ∃ d : Col, new.cols[i]? = some d ∧ d.cell = c.cell ∧ d.name <+: c.name

end Beep.Spec.SharedMatrix
