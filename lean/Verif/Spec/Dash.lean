import Verif.Model.Dash
/-
Vocabulary for nested dictionaries.
-/
namespace Beep.Spec.Dash
open Beep Beep.Dash

/-- no dictionary of the nested dictionary has a key twice -/
def Distinct : Obj → Prop
  | .nil => True
  | .leaf k _ r => k ∉ r.keys ∧ Distinct r
  | .node k s r => k ∉ r.keys ∧ Distinct s ∧ Distinct r

/-- paths that do not lead through each other -/
def Apart (p q : List Str) : Prop := ¬ p <+: q ∧ ¬ q <+: p

/-- the path leads through a text -/
def Blocked (o : Obj) (p : List Str) : Prop := ∃ q s, q <+: p ∧ q ≠ p ∧ getP o q = some (.str s)

end Beep.Spec.Dash
