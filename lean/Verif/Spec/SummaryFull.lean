import Verif.Spec.Segments
import Verif.Spec.Stats
import Verif.Spec.Summary
import Verif.Model.SummaryFull
import Mathlib.Algebra.BigOperators.Group.Finset.Basic
import Mathlib.Algebra.Order.Field.Rat
/-
Specification vocabulary for the remaining columns of the summaries.
-/
namespace Beep.Spec.SummaryFull
open Beep.SummaryFull (Raw)
open Beep.Spec.Segments

/-- the raw rows of a cycle, in order -/
def rowsOf (raw : List Raw) (c : Int) : List Raw := raw.filter (fun r => decide (r.cycle = c))

/-- `m` is the smallest present value -/
def IsMin (vals : List (Option Rat)) (m : Rat) : Prop :=
  some m ∈ vals ∧ ∀ v, some v ∈ vals → m ≤ v

/-- `v` is the value in the last row that has one -/
def LastPresent (vals : List (Option Rat)) (v : Rat) : Prop :=
  ∃ before after, vals = before ++ some v :: after ∧ ∀ x ∈ after, x = none

/-- the integral of temperature over time in minutes by the trapezoidal rule -/
def trapezoid (stamps temps : List Rat) : Rat :=
  ∑ i ∈ Finset.range (stamps.length - 1),
    (stamps.getD (i + 1) 0 - stamps.getD i 0) / 60 * ((temps.getD i 0 + temps.getD (i + 1) 0) / 2)

/-- `p` is the longest gap between consecutive time stamps if one exceeds an hour, else 0 -/
def IsPause (stamps : List Rat) (p : Rat) : Prop :=
  ((∃ g, Gap (stamps.map some) g ∧ g > 3600) → Gap (stamps.map some) p ∧ ∀ g, Gap (stamps.map some) g → g ≤ p) ∧
  ((¬ ∃ g, Gap (stamps.map some) g ∧ g > 3600) → p = 0)

/-- the records of the given rows as used for the constant-voltage segment -/
def records (rows : List Raw) : List Segments.Row := rows.map (fun r => ⟨r.time, r.volt, r.curr, r.cap⟩)

/-- the rows of the lowest step index -/
def lowestStep (rows : List Raw) (s : Int) : Prop :=
  (∃ r ∈ rows, r.step = some s) ∧ ∀ r ∈ rows, ∀ s', r.step = some s' → s ≤ s'

end Beep.Spec.SummaryFull
