import Verif.Spec.Rounding
import Verif.Model.Summary
/-
Specification vocabulary for the cycle summary.  Only the input and output records of the
model are used.
-/
namespace Beep.Spec.Summary
open Beep.Summary

/-- `m` is the largest present value -/
def IsMax (vals : List (Option Rat)) (m : Rat) : Prop :=
  some m ∈ vals ∧ ∀ v, some v ∈ vals → v ≤ m

/-- the raw rows of a cycle, in order -/
def rowsOf (raw : List Raw) (c : Int) : List Raw := raw.filter (fun r => r.cycle = c)

/-- `all` lists, in ascending order, exactly the cycles of the raw data outside `diag` -/
def RegularCycles (diag : List Int) (raw : List Raw) (all : List Int) : Prop :=
  all.Pairwise (· < ·) ∧ ∀ c, c ∈ all ↔ (∃ r ∈ raw, r.cycle = c) ∧ c ∉ diag

/-- the completeness rule for a cycle: the voltage goes below `vmin` and above `vmax`, and
the largest discharge capacity exceeds `ratio` times the largest charge capacity -/
def Complete (p : Params) (raw : List Raw) (c : Int) : Prop :=
  (∃ r ∈ rowsOf raw c, ∃ v, r.voltage = some v ∧ v < p.vmin) ∧
  (∃ r ∈ rowsOf raw c, ∃ v, r.voltage = some v ∧ v > p.vmax) ∧
  ∃ d q, IsMax ((rowsOf raw c).map Raw.dchgCap) d ∧ IsMax ((rowsOf raw c).map Raw.chgCap) q ∧
    d > p.ratio * q

/-- `b` is the first row of the list whose charge capacity has reached `level` -/
def FirstReaching (rows : List Raw) (level : Rat) (b : Raw) : Prop :=
  ∃ before after, rows = before ++ b :: after ∧ (∃ q, b.chgCap = some q ∧ level ≤ q) ∧
    ∀ x ∈ before, ∀ q, x.chgCap = some q → q < level

/-- the charge duration of a cycle: time from its first row to the first row that has
reached `nominal * fullFast`, rounded to hundredths of a second; `none` if never reached -/
def IsDuration (p : Params) (raw : List Raw) (c : Int) (d : Option Rat) : Prop :=
  (∃ a b, (rowsOf raw c).head? = some a ∧ FirstReaching (rowsOf raw c) (p.nominal * p.fullFast) b ∧
      ∃ t, TwoDecimals (b.stamp - a.stamp) t ∧ d = some t) ∨
  ((∀ x ∈ rowsOf raw c, ∀ q, x.chgCap = some q → q < p.nominal * p.fullFast) ∧ d = none)

/-- `r` is the first entry whose capacity is below `level` -/
def FirstBelow (s : Caps) (level : Rat) (label : Int) : Prop :=
  ∃ before cap after, s = before ++ (label, cap) :: after ∧ cap < level ∧ ∀ x ∈ before, level ≤ x.2

end Beep.Spec.Summary
