import Verif.Model.Text
/-
Vocabulary for fixed width tables.
-/
namespace Beep.Spec.FixedWidth
open Beep Beep.Text

/-- no blank at either end -/
def Trimmed (s : Str) : Prop :=
  (∀ c, s.head? = some c → isWs c = false) ∧ (∀ c, s.getLast? = some c → isWs c = false)

/-- the sequence has exactly these keys in this order -/
def HasKeys (keys : List Str) (s : Dict Str Str) : Prop := s.map Prod.fst = keys

end Beep.Spec.FixedWidth
