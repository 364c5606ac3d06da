/-
Specification vocabulary for diagnostic configurations, independent of the
model: what it means that a cycle index is listed under a type, and that a
step pattern matches a cycle.
-/
namespace Beep.Spec.Diagnostic

/-- index `i` is listed under type `t` in the user's mapping -/
def Listed (d : List (String × List Int)) (i : Int) (t : String) : Prop :=
  ∃ ix, (t, ix) ∈ d ∧ i ∈ ix

/-- no index is listed under two different types -/
def Unambiguous (d : List (String × List Int)) : Prop :=
  ∀ i t t', Listed d i t → Listed d i t' → t = t'

/-- the type name contains `w`, ignoring case -/
def NameContains (w : String) (t : String) : Prop :=
  w.toList <:+: t.toList.map Char.toLower

/-- a "contains" pattern matches when all its steps occur; an "exact" pattern
when the cycle has exactly these steps -/
def PatternMatches (rule : String) (pattern : List Int) (occurs : Int → Prop) : Prop :=
  (rule = "contains" ∧ ∀ s ∈ pattern, occurs s) ∨
  (rule = "exact" ∧ ∀ s, occurs s ↔ s ∈ pattern)

end Beep.Spec.Diagnostic
