import Verif.Model.ChargeWave
import Verif.Spec.Waveform
/-
Vocabulary for the properties of driving and charging waveforms (C73 - C77).
-/
namespace Beep.Spec.ChargeWave
open Beep ChargeWave

/-- the part of the charge between two neighbouring points of the charging curve -/
def share (w : Wave) : Rat := (w.socF - w.socI) / 999

/-- the state of charge at the `k`-th of the thousand points -/
def socAt (w : Wave) (k : Nat) : Rat := w.socI + k * share w

/-- the state of charge lies strictly inside the `i`-th window -/
def Inside (mesh : List Rat) (i : Nat) (soc : Rat) : Prop :=
  ∃ a b : Rat, mesh[i]? = some a ∧ mesh[i + 1]? = some b ∧ a < soc ∧ soc < b

/-- the mesh divides the range from the initial to the final state of charge into windows -/
def Divides (w : Wave) (mesh : List Rat) : Prop :=
  mesh.Pairwise (· < ·) ∧ mesh.head? = some w.socI ∧ mesh.getLast? = some w.socF ∧ 2 ≤ mesh.length

/-- the seconds it takes to put in the shares of the points up to the `k`-th, each at its C-rate
(one hour at rate one is the whole charge) -/
def elapsed (w : Wave) (rates : List Rat) (k : Nat) : Rat :=
  ((rates.take (k + 1)).map (fun c => 3600 * share w / c)).sum

/-- `v` is the rate at second `t`: that of the first point until its time, then the straight line
between the points before and after, then that of the last point -/
def Follows (w : Wave) (rates : List Rat) (t v : Rat) : Prop :=
  (t < elapsed w rates 0 ∧ rates[0]? = some v) ∨
  (∃ (k : Nat) (a b : Rat), rates[k]? = some a ∧ rates[k + 1]? = some b ∧
    elapsed w rates k ≤ t ∧ t ≤ elapsed w rates (k + 1) ∧
    (v - a) * (elapsed w rates (k + 1) - elapsed w rates k) = (b - a) * (t - elapsed w rates k)) ∨
  (elapsed w rates (rates.length - 1) < t ∧ rates.getLast? = some v)

/-- speed in metres per second -/
def metresPerSecond (units : Str) (v : Rat) : Option Rat :=
  if units = "mps".toList then some v
  else if units = "kmph".toList then some (v * 1000 / 3600)
  else if units = "mph".toList then some (v * (1609344 / 1000) / 3600)
  else none

/-- the power (positive is charge) of a car of 1500 kg at speed `v` and acceleration `a`: rolling
resistance one percent of the weight, air drag with density 1.225, coefficient 0.34 and area 1.75 -/
def carPower (v a : Rat) : Rat :=
  -((1500 * a + 147 + 3644375 / 10000000 * v ^ 2) * v)

/-- times strictly increase -/
def Clocked (rows : List (Rat × Rat)) : Prop := rows.Pairwise (fun p q => p.1 < q.1)

/-- between row `i` and the next the speed changes at `q` metres per second squared -/
def Slope (units : Str) (rows : List (Rat × Rat)) (i : Nat) (q : Rat) : Prop :=
  ∃ (t v t' v' s s' : Rat), rows[i]? = some (t, v) ∧ rows[i + 1]? = some (t', v') ∧
    metresPerSecond units v = some s ∧ metresPerSecond units v' = some s' ∧ q * (t' - t) = s' - s

/-- `a` is the acceleration at row `k`: at the ends that of the first or last interval, inside the mean
of those before and after, each weighted by the length of the other interval -/
def Acceleration (units : Str) (rows : List (Rat × Rat)) (k : Nat) (a : Rat) : Prop :=
  (k = 0 ∧ Slope units rows 0 a) ∨
  (0 < k ∧ k + 1 = rows.length ∧ Slope units rows (k - 1) a) ∨
  (∃ (j : Nat) (q q' : Rat) (x y z : Rat × Rat), k = j + 1 ∧ Slope units rows j q ∧
    Slope units rows k q' ∧ rows[j]? = some x ∧ rows[k]? = some y ∧ rows[k + 1]? = some z ∧
    a * (z.1 - x.1) = q * (z.1 - y.1) + q' * (y.1 - x.1))

end Beep.Spec.ChargeWave
