import Verif.Model.RetriggerArgs
/-
Vocabulary for the statements about the options of the retrigger script.
-/
namespace Beep.Spec.RetriggerArgs
open Beep RetriggerArgs

/-- one of the three options, and the text given for it on the command line -/
inductive Given : (mode pre output : Option Str) → (name text : Str) → Prop where
  | mode (t : Str) (p o : Option Str) : Given (some t) p o "mode".toList t
  | pre (t : Str) (m o : Option Str) : Given m (some t) o "s3_prefix".toList t
  | output (t : Str) (m p : Option Str) : Given m p (some t) "s3_output".toList t

/-- no Python literal: Python has no value for the text -/
def NoLiteral (rest : Str → Option Val) (t : Str) : Prop :=
  t ≠ "True".toList ∧ t ≠ "False".toList ∧ t ≠ "None".toList ∧ rest t = none ∧
  (∃ c ∈ t, c < '0' ∨ '9' < c) ∧ (∀ q s, t = q :: s → q = '\'' ∨ q = '"' → s.getLast? ≠ some q)

end Beep.Spec.RetriggerArgs
