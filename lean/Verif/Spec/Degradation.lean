import Verif.Model.Degradation
import Verif.Spec.Segments
import Mathlib.Algebra.Order.Group.Unbundled.Abs
import Mathlib.Algebra.Order.Ring.Rat
/-
Specification vocabulary for degradation, throughput and end-of-life features.
-/
namespace Beep.Spec.Degradation
open Beep.Degradation

/-- `z` is `x / y`: missing if one of them is, or if `y` is zero -/
def Quotient (x y z : Option Rat) : Prop :=
  (∀ a b, x = some a → y = some b → b ≠ 0 → ∃ c, z = some c ∧ c * b = a) ∧
  (x = none ∨ y = none ∨ y = some 0 → z = none)

/-- the amount of a quantity in the rows that satisfy a condition; missing values count as nothing -/
def amount {α : Type} (rows : List α) (p : α → Prop) [DecidablePred p] (q : α → Option Rat) : Rat :=
  ((rows.filter (fun r => decide (p r))).map (fun r => (q r).getD 0)).sum

/-- a regular cycle: not the formation cycle 0, and not one of the diagnostic cycles -/
def Regular (diag : List DiagRow) (r : RegRow) : Prop := r.cycle ≠ 0 ∧ ∀ d ∈ diag, d.cycle ≠ r.cycle

instance (diag : List DiagRow) (r : RegRow) : Decidable (Regular diag r) :=
  inferInstanceAs (Decidable (_ ∧ _))

/-- a diagnostic cycle of the type, with a regular cycle after it -/
def Reported (reg : List RegRow) (diag : List DiagRow) (type : String) (d : DiagRow) : Prop :=
  d.type = type ∧ ∃ r ∈ reg, Regular diag r ∧ d.cycle ≤ r.cycle

instance (reg : List RegRow) (diag : List DiagRow) (type : String) (d : DiagRow) : Decidable (Reported reg diag type d) :=
  inferInstanceAs (Decidable (_ ∧ _))

/-- the quantity that goes with a metric: discharge energy for energies, else discharge capacity -/
def Companion (metric q : String) : Prop :=
  ("energy".toList <:+: metric.toList ∧ q = "discharge_energy") ∨
  (¬ "energy".toList <:+: metric.toList ∧ q = "discharge_capacity")

/-- the rows of the summary are in the order of the cycles -/
def InOrder (reg : List RegRow) : Prop := reg.Pairwise (fun a b => a.cycle < b.cycle)

/-- `c` is the last regular cycle before the first interruption: some later regular cycle exists,
the cycle after `c` is not regular, and all cycles between the first regular cycle and `c` are -/
def EndsFirstRun (reg : List RegRow) (diag : List DiagRow) (c : Int) : Prop :=
  (∃ r ∈ reg, Regular diag r ∧ r.cycle = c) ∧
  (∃ r ∈ reg, Regular diag r ∧ c < r.cycle) ∧
  (∀ r ∈ reg, Regular diag r → r.cycle ≠ c + 1) ∧
  (∀ r ∈ reg, Regular diag r → r.cycle < c → ∃ s ∈ reg, Regular diag s ∧ s.cycle = r.cycle + 1)

/-- a straight line between two measured points -/
def OnLine (pts : List (Rat × Rat)) (x y : Rat) : Prop :=
  ∃ a ∈ pts, ∃ b ∈ pts, a.1 < b.1 ∧ a.1 ≤ x ∧ x ≤ b.1 ∧ (∀ c ∈ pts, c.1 ≤ a.1 ∨ b.1 ≤ c.1) ∧
    (y - a.2) * (b.1 - a.1) = (b.2 - a.2) * (x - a.1)

/-- the numeric column with a name -/
def Column (name : String) (f : TRow → Rat) : Prop :=
  (name = "cycle_index" ∧ f = fun r => (r.cycle : Rat)) ∨
  (name = "fractional_metric" ∧ f = TRow.fraction) ∨
  (name = "initial_regular_throughput" ∧ f = TRow.initial) ∨
  (name = "normalized_regular_throughput" ∧ f = TRow.nRegular) ∨
  (name = "normalized_diagnostic_throughput" ∧ f = TRow.nDiagnostic) ∨
  (name = "diagnostic_start_cycle" ∧ f = TRow.start) ∨
  (name = "diagnostic_interval" ∧ f = TRow.interval) ∨
  (name = "epoch_time" ∧ f = TRow.epoch)

/-- three consecutive rows -/
def Triple (df : List TRow) (a b c : TRow) : Prop := ∃ pre post, df = pre ++ a :: b :: c :: post

/-- the change of the degradation rate over three rows -/
def bend (a b c : TRow) : Rat := (c.fraction - b.fraction) - (b.fraction - a.fraction)

/-- the name of the column of an axis: cycle type, metric and threshold, then the axis -/
def targetName (h : Hyper) (axis : String) : String :=
  String.join [h.cycleType, h.metric, h.thresholdText, "_", axis]

/-- the rows of the cycle type and metric asked for -/
def chosen (h : Hyper) (df : List TRow) : List TRow :=
  df.filter (fun r => decide (r.cycleType = h.cycleType ∧ r.metric = h.metric))

/-- `t` is the `i`-th of 1000 equidistant places from `lo` to `hi` -/
def GridPoint (lo hi : Rat) (i : Nat) (t : Rat) : Prop := i < 1000 ∧ 999 * (t - lo) = i * (hi - lo)

/-- `t` is a place where the curve through the points comes closest to `thr`, among 1000 equidistant
places from the smallest to the largest abscissa -/
def Closest (pts : List (Rat × Rat)) (thr t : Rat) : Prop :=
  ∃ lo hi i y, (∃ p ∈ pts, p.1 = lo) ∧ (∃ p ∈ pts, p.1 = hi) ∧ (∀ p ∈ pts, lo ≤ p.1 ∧ p.1 ≤ hi) ∧
    GridPoint lo hi i t ∧ OnLine pts t y ∧
    ∀ j u z, GridPoint lo hi j u → OnLine pts u z → |y - thr| ≤ |z - thr|

/-- the last value that was measured -/
def LastMeasured (fs : List (Option Rat)) (v : Rat) : Prop :=
  ∃ pre post, fs = pre ++ some v :: post ∧ ∀ x ∈ post, x = none

/-- the fraction left at the end of the test; a final value above one is replaced by the one
before -/
def AtEnd (fs : List (Option Rat)) (v : Rat) : Prop :=
  ∃ u, LastMeasured fs u ∧ ((u ≤ 1 ∧ v = u) ∨ (1 < u ∧ fs.length = 1 ∧ v = u) ∨
    (1 < u ∧ 1 < fs.length ∧ LastMeasured fs.dropLast v))

/-- the constant-voltage phase of the charge of a cycle begins within the fraction `f` of its duration -/
def EarlyCV (f : Rat) (data : List DataRow) (c : Int) : Prop :=
  ∃ r t0 t1, (Segments.cvSegment {} ((data.filter (fun d => d.cycle = c ∧ d.stepType = "charge")).map DataRow.seg)).head? = some r ∧
    (∃ d ∈ data, d.cycle = c ∧ d.seg.time = t0) ∧ (∀ d ∈ data, d.cycle = c → t0 ≤ d.seg.time) ∧
    (∃ d ∈ data, d.cycle = c ∧ d.seg.time = t1) ∧ (∀ d ∈ data, d.cycle = c → d.seg.time ≤ t1) ∧
    r.time < t0 + f * (t1 - t0)

/-- `o` is the first of the rows whose fraction is below the threshold -/
def FirstBelow (rows : List NxRow) (thr : Rat) (o : NxRow) : Prop :=
  ∃ pre post, rows = pre ++ o :: post ∧ (∃ v, o.fraction = some v ∧ v < thr) ∧
    ∀ p ∈ pre, ¬ ∃ v, p.fraction = some v ∧ v < thr

/-- the charge throughput that the summary holds for the last cycle not after `c` is `x` (the last
value measured, if that row has none) -/
def ThroughputAt (reg : List RegRow) (c : Int) (x : Rat) : Prop :=
  ∃ pre q post, reg = pre ++ q :: post ∧ q.cycle ≤ c ∧ (∀ r ∈ reg, r.cycle ≤ c → r.cycle ≤ q.cycle) ∧
    LastMeasured ((pre ++ [q]).map (fun r => r.val "charge_throughput")) x

end Beep.Spec.Degradation
