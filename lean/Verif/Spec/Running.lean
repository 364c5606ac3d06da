import Verif.Spec.Validate
import Verif.Proof.Base

/-!
# A run that goes on: more records are added to every column
-/

namespace Beep.Spec.Running

open Beep.Validate Beep.Spec.Validate

/-- The column with the records of `b` behind those of `a`.  A column of integers to which floats are
added is one of floats. -/
def extend : Col → Col → Col
  | .num f a, .num f' b => .num (f || f') (a ++ b)
  | .str a, .str b => .str (a ++ b)
  | c, _ => c

/-- Both columns hold numbers, or both hold strings. -/
def SameKind : Col → Col → Prop
  | .num _ _, .num _ _ => True
  | .str _, .str _ => True
  | _, _ => False

/-- The table with the records of the second table behind those of the first. -/
def goesOn (f h : Frame) : Frame := List.zipWith (fun a b => (a.1, extend a.2 b.2)) f h

/-- The two tables have the same columns, in the same order, of the same kind. -/
def Matching (f h : Frame) : Prop :=
  List.Forall₂ (fun a b => a.1 = b.1 ∧ SameKind a.2 b.2) f h

/-- The rules that ask for at least one record beyond a bound: `max_at_least` and `min_is_below`. -/
def Reaches : Rule → Prop
  | .maxAtLeast _ => True
  | .minIsBelow _ => True
  | _ => False

/-- A number column does not fall from its last record in `a` to its first in `b`. -/
def Follows : Col → Col → Prop
  | .num _ a, .num _ b => ∀ x y, a.getLast? = some (some x) → b.head? = some (some y) → x ≤ y
  | _, _ => False

end Beep.Spec.Running
