import Verif.Model.Segments
/-
Specification vocabulary for the constant-voltage segment and for pauses.
-/
namespace Beep.Spec.Segments
open Beep.Segments

/-- the constant-voltage criterion for two consecutive records: at least `dt` seconds
apart, voltage changing by at most `dVdt` per second, current by at least `dIdt` -/
def Criterion (tol : Tol) (a b : Row) : Prop :=
  tol.dt ≤ b.time - a.time ∧
  (-tol.dVdt ≤ (b.volt - a.volt) / (b.time - a.time) ∧
    (b.volt - a.volt) / (b.time - a.time) ≤ tol.dVdt) ∧
  (tol.dIdt ≤ (b.curr - a.curr) / (b.time - a.time) ∨
    (b.curr - a.curr) / (b.time - a.time) ≤ -tol.dIdt)

/-- the first pair of consecutive records meeting the criterion starts at record `i` -/
def FirstAt (tol : Tol) (rows : List Row) (i : Nat) : Prop :=
  (∃ a b, rows[i]? = some a ∧ rows[i + 1]? = some b ∧ Criterion tol a b) ∧
  ∀ j < i, ∀ a b, rows[j]? = some a → rows[j + 1]? = some b → ¬ Criterion tol a b

/-- no pair of consecutive records meets the criterion -/
def Never (tol : Tol) (rows : List Row) : Prop :=
  ∀ (j : Nat) a b, rows[j]? = some a → rows[j + 1]? = some b → ¬ Criterion tol a b

/-- `g` is the time between two consecutive records that both have a time stamp -/
def Gap (stamps : List (Option Rat)) (g : Rat) : Prop :=
  ∃ (i : Nat) (a b : Rat), stamps[i]? = some (some a) ∧ stamps[i + 1]? = some (some b) ∧ g = b - a

/-- every time stamp is a whole number of seconds -/
def WholeSeconds (stamps : List (Option Rat)) : Prop := ∀ t, some t ∈ stamps → ∃ z : Int, t = z

/-- the clock of the machine is not changed between the time stamps: its distance from UTC is
`d` for all of them -/
def ClockKept (shift : Int → Int) (stamps : List (Option Rat)) (d : Int) : Prop :=
  ∀ (t : Rat) (s : Int), some t ∈ stamps → (s : Rat) ≤ t → t < s + 1 → shift s = d

end Beep.Spec.Segments
