import Verif.Spec.Ingest
import Verif.Model.BiologicTime
/-
What the clock of the computer shows when a record is written, and when it is summer there.
-/
namespace Beep.Spec.BiologicTime
open Beep BiologicTime Beep.Spec.Ingest

/-- the value of the digits behind a decimal point -/
def decimal : List Nat → Rat
  | [] => 0
  | k :: ks => (k + decimal ks) / 10

/-- at the instant `u` (seconds, UTC) clocks in California show this stamp, printed with one to six
decimals -/
def ShowsAt (u : Rat) (x : Stamp) : Prop :=
  1 ≤ x.frac.length ∧ x.frac.length ≤ 6 ∧ (∀ k ∈ x.frac, k < 10) ∧
  ∃ t : Int, Shows t x.y x.m x.d x.h x.mi x.s ∧ u = t + decimal x.frac

/-- daylight saving time is in force at this instant of the year -/
def Summer (y : Int) (u : Rat) : Prop := ∃ b e : Int, Begins y b ∧ Ends y e ∧ (b : Rat) ≤ u ∧ u < (e : Rat)

/-- the first hour after the end of daylight saving time -/
def Repeated (y : Int) (u : Rat) : Prop := ∃ e : Int, Ends y e ∧ (e : Rat) ≤ u ∧ u < (e : Rat) + 3600

end Beep.Spec.BiologicTime
