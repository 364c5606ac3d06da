import Verif.Model.ExitStatus
import Verif.Spec.Batch
import Verif.Spec.Featurize
/-
Vocabulary for the statements about exit statuses: C174.
-/
namespace Beep.Spec.ExitStatus
open Beep Beep.ExitStatus
open Beep.Batch (Exc Files)

variable {D C F V B M : Type}

/-- the name is that of a native featurizer, or of one that can be imported -/
def Known (lib : Library F) (n : Str) : Prop :=
  (∃ f, lib.native n = some f) ∨ ('.' ∈ n ∧ ∃ f, lib.imported n = .ok (f, true))

/-- nothing in the status of `beep featurize` failed -/
def NoFailure (st : Dict Str Featurize.FileResult) : Prop :=
  ∀ p ∈ st, ∀ r ∈ p.2.featurizers, r.traceback = none

end Beep.Spec.ExitStatus
