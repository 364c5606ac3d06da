import Verif.Spec.CyclesInterp
import Mathlib.Data.Finset.Card
import Mathlib.Data.Finset.Dedup
/-
Specification vocabulary for the interpolated diagnostic cycles.
-/
namespace Beep.Spec.DiagInterp
open Beep.Steps (Row)
open Beep.Spec.CyclesInterp

/-- both rows have the same step index; a missing step index is like no other -/
def SameStep (a b : Row) : Prop := ∃ s, a.step = some s ∧ b.step = some s

/-- `runs` are the maximal blocks of consecutive rows with the same step index -/
structure IsRuns (rows : List Row) (runs : List (List Row)) : Prop where
  join : runs.flatten = rows
  nonempty : ∀ b ∈ runs, b ≠ []
  same : ∀ b ∈ runs, b.Pairwise SameStep
  maximal : ∀ (i : Nat) a b, runs[i]? = some a → runs[i + 1]? = some b →
    ∀ x y, a.getLast? = some x → b.head? = some y → ¬ SameStep x y

/-- the rows of a cycle -/
def cycleRows (raw : List Row) (c : Int) : List Row := raw.filter (fun r => decide (r.cycle = c))

/-- how a run is interpolated: on time over its own duration if its voltages span less than
`vDelta`, otherwise on voltage, over its own voltages in an HPPC cycle and over the given range
(if any) in another cycle -/
inductive Plan (timeRes voltRes : Nat) (vDelta : Rat) (fallback : Option (Rat × Rat)) (hppc : Prop)
    (run : List Row) : String → (Row → Option Rat) → Nat → Rat → Rat → Nat → Prop
  | time {vlo vhi lo hi} : Extent Row.voltage run vlo vhi → vhi - vlo < vDelta → Extent Row.time run lo hi →
      Plan timeRes voltRes vDelta fallback hppc run "test_time" Row.time 0 lo hi timeRes
  | hppc {lo hi} : Extent Row.voltage run lo hi → vDelta ≤ hi - lo → hppc →
      Plan timeRes voltRes vDelta fallback hppc run "voltage" Row.voltage 1 lo hi voltRes
  | own {lo hi} : Extent Row.voltage run lo hi → vDelta ≤ hi - lo → ¬ hppc → fallback = none →
      Plan timeRes voltRes vDelta fallback hppc run "voltage" Row.voltage 1 lo hi voltRes
  | given {vlo vhi lo hi} : Extent Row.voltage run vlo vhi → vDelta ≤ vhi - vlo → ¬ hppc → fallback = some (lo, hi) →
      Plan timeRes voltRes vDelta fallback hppc run "voltage" Row.voltage 1 lo hi voltRes

/-- point `i` of the `n` evenly spaced values from the smaller to the larger of two bounds -/
def gridPoint (lo hi : Rat) (n i : Nat) : Rat :=
  min lo hi + (i : Rat) * ((max lo hi - min lo hi) / ((n : Rat) - 1))

/-- the `k`-th number of the rank of a step in a cycle: how many other step indices occur
before its first row -/
def Rank (rows : List Row) (s : Int) (k : Nat) : Prop :=
  ∃ pre r post, rows = pre ++ r :: post ∧ r.step = some s ∧ (∀ q ∈ pre, q.step ≠ some s) ∧
    k = (pre.map Row.step).toFinset.card

/-- `m` is the slope of the column with values `q`, `q'` against the voltages `v`, `v'`; it
is missing if a value is missing or the voltages are equal -/
def Slope (q q' v v' : Option Rat) (m : Option Rat) : Prop :=
  (∀ a a' b b', q = some a → q' = some a' → v = some b → v' = some b' → b ≠ b' → m = some ((a - a') / (b - b'))) ∧
  ((q = none ∨ q' = none ∨ v = none ∨ v' = none ∨ v = v') → m = none)

end Beep.Spec.DiagInterp
