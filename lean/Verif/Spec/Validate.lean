import Verif.Model.Validate
/-
What each schema rule says about a column (data types shared with the model,
nothing else).
-/
namespace Beep.Spec.Validate
open Beep.Validate

/-- one rule of a schema -/
inductive Rule where
  | type (t : String)
  | max (m : Rat)
  | min (m : Rat)
  | maxAtLeast (m : Rat)
  | minIsBelow (m : Rat)
  | increasing
  deriving DecidableEq, Repr

def Rule.kind : Rule → RuleKind
  | .type _ => .type
  | .max _ => .max
  | .min _ => .min
  | .maxAtLeast _ => .maxAtLeast
  | .minIsBelow _ => .minIsBelow
  | .increasing => .monotonic

/-- the rules a column schema contains, in the documented order: type, max, min,
max_at_least, min_is_below, monotonic -/
def rulesOf (s : ColSchema) : List Rule :=
  (s.type.map Rule.type).toList ++ (s.max.map Rule.max).toList ++ (s.min.map Rule.min).toList ++
  (s.maxAtLeast.map Rule.maxAtLeast).toList ++ (s.minIsBelow.map Rule.minIsBelow).toList ++
  (if s.monotonic = some "increasing" then [Rule.increasing] else [])

/-- all rules of a schema with their column, in order -/
def allRules (schema : List (String × ColSchema)) : List (String × Rule) :=
  schema.flatMap (fun p => (rulesOf p.2).map (fun r => (p.1, r)))

/-- the rule can be evaluated on the column at all -/
def Applicable : Rule → Col → Prop
  | .type t, .str vs => (t = "integer" ∧ vs = []) ∨ t = "float" ∨ t = "numeric" ∨ t = "string"
  | .type t, .num _ _ => t = "integer" ∨ t = "float" ∨ t = "numeric" ∨ t = "string"
  | .increasing, .str vs => vs.length < 2
  | .increasing, _ => True
  | _, .str vs => vs = []
  | _, .num _ _ => True

/-- the rule holds of the whole column.  Missing values satisfy the bounds, fail the
integer type, and are skipped by the other rules. -/
def Holds : Rule → Col → Prop
  | .type t, .num isFloat vals =>
      (t = "integer" ∧ ∀ v ∈ vals, ∃ n : Int, v = some (n : Rat)) ∨
      (t = "float" ∧ isFloat = true) ∨ t = "numeric"
  | .type t, .str vals => (t = "integer" ∧ vals = []) ∨ t = "string"
  | .max m, .num _ vals => ∀ v, some v ∈ vals → v ≤ m
  | .min m, .num _ vals => ∀ v, some v ∈ vals → m ≤ v
  | .maxAtLeast m, .num _ vals => (∃ v, some v ∈ vals) → ∃ v, some v ∈ vals ∧ m ≤ v
  | .minIsBelow m, .num _ vals => (∃ v, some v ∈ vals) → ∃ v, some v ∈ vals ∧ v ≤ m
  | .increasing, .num _ vals => ∀ pre a b post, vals = pre ++ some a :: some b :: post → a ≤ b
  | _, .str _ => True

/-- a single entry offends the rule: the rules that look at the rows one by one -/
def Offends : Rule → Option Rat → Prop
  | .type t, v => t = "integer" ∧ ¬ ∃ n : Int, v = some (n : Rat)
  | .max m, v => ∃ x, v = some x ∧ m < x
  | .min m, v => ∃ x, v = some x ∧ x < m
  | _, _ => False

/-- the bound of a rule that has one -/
def Rule.bound : Rule → Option Rat
  | .max m => some m
  | .min m => some m
  | .maxAtLeast m => some m
  | .minIsBelow m => some m
  | _ => none

end Beep.Spec.Validate
