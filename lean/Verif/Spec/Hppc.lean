import Verif.Model.Hppc
import Verif.Spec.Stats
import Verif.Spec.CoreFeatures
import Mathlib.Data.List.Forall2
/-
Specification vocabulary for the features of HPPC (pulse power) diagnostics.
-/
namespace Beep.Spec.Hppc
open Beep.Hppc

/-- `c` is the `k`-th different value of a list, in the order of first appearance, counted from 0 -/
def IsNth (l : List Int) (k : Nat) (c : Int) : Prop :=
  ∃ pre post, l = pre ++ c :: post ∧ c ∉ pre ∧ pre.toFinset.card = k

/-- `w` holds the rows of the `j`-th occurrence of a step -/
def Occurrence (rows : List Row) (s : Int) (j : Nat) (w : List Row) : Prop :=
  ∃ c, IsNth ((rows.filter (fun r => r.step = s)).map Row.counter) j c ∧
    w = rows.filter (fun r => r.step = s ∧ r.counter = c)

/-- an occurrence belongs to one step -/
def Separate (rows : List Row) : Prop := ∀ q ∈ rows, ∀ r ∈ rows, q.counter = r.counter → q.step = r.step

/-- every row has a time, and no two have the same -/
def Timed (rows : List Row) : Prop :=
  (∀ r ∈ rows, r.time ≠ none) ∧ rows.Pairwise (fun a b => a.time ≠ b.time)

/-- `a` was measured before `b` -/
def Before (a b : Row) : Prop := ∃ x y, a.time = some x ∧ b.time = some y ∧ x < y

/-- `r` is the last in time of the rows that satisfy a condition -/
def IsLast (P : Row → Prop) (rows : List Row) (r : Row) : Prop :=
  r ∈ rows ∧ P r ∧ ∀ q ∈ rows, P q → q ≠ r → Before q r

/-- at most `limit` seconds after every row -/
def Within (limit : Rat) (rows : List Row) (r : Row) : Prop :=
  ∀ q ∈ rows, ∀ x y, q.time = some x → r.time = some y → y - x ≤ limit

/-- the row of a pulse that belongs to a time scale: 0 s (one millisecond), 3 s, the end -/
def IsAt (scale : Scale) (pulse : List Row) (r : Row) : Prop := match scale with
  | .start => IsLast (Within (1 / 1000) pulse) pulse r
  | .three => IsLast (Within 3 pulse) pulse r
  | .final => IsLast (fun _ => True) pulse r

/-- `l` holds the last `n` rows in time, or all if there are fewer -/
def Recent (n : Nat) (rows l : List Row) : Prop :=
  ∃ older, rows.Perm (older ++ l) ∧ l.length = min n rows.length ∧ ∀ a ∈ older, ∀ b ∈ l, Before a b

/-- `v` is the resistance of a pulse after a rest: the change of the voltage since the end of the rest divided by
the change of the current since the last five points of the rest; missing if the current does not change -/
def IsResistance (scale : Scale) (rest pulse : List Row) (v : Option Rat) : Prop :=
  ∃ o p l, IsLast (fun _ => True) rest o ∧ IsAt scale pulse p ∧ Recent 5 rest l ∧
    ∀ i m, p.curr = some i → Stats.IsMean (Stats.present (l.map Row.curr)) m →
      (i ≠ m → v = some ((p.volt - o.volt) / (i - m))) ∧ (i = m → v = none)

/-- the rows of the hppc cycle at a position that have a current -/
def IsHppcCycle (rows : List Row) (pos : Nat) (chosen : List Row) : Prop :=
  ∃ c, IsNth ((rows.filter (fun r => r.cycleType = "hppc" ∧ r.curr ≠ none)).map Row.cycle) pos c ∧
    chosen = rows.filter (fun r => (r.cycleType = "hppc" ∧ r.curr ≠ none) ∧ r.cycle = c)

/-- the rows of the hppc cycle at a position -/
def IsHppcCycleAll (rows : List Row) (pos : Nat) (chosen : List Row) : Prop :=
  ∃ c, IsNth ((rows.filter (fun r => r.cycleType = "hppc")).map Row.cycle) pos c ∧
    chosen = rows.filter (fun r => r.cycleType = "hppc" ∧ r.cycle = c)

/-- `z` is the relative change of `y` against `x` -/
def RelativeChange (x y z : Option Rat) : Prop :=
  (∀ a b, x = some a → y = some b → a ≠ 0 → z = some ((b - a) / a)) ∧
  (x = none ∨ y = none ∨ x = some 0 → z = none)

/-- the steps of a cycle come in the order first step, long rest, discharge pulse, short rest, charge pulse -/
def InOrder (chosen : List Row) (longRest dischargePulse shortRest chargePulse : Int) : Prop :=
  IsNth (chosen.map Row.step) 1 longRest ∧ IsNth (chosen.map Row.step) 2 dischargePulse ∧
  IsNth (chosen.map Row.step) 3 shortRest ∧ IsNth (chosen.map Row.step) 4 chargePulse

/-- `v` is the resistance of the `j`-th pulse after the `j`-th rest, missing if there is no such rest or pulse -/
def ResistanceOf (chosen : List Row) (restStep pulseStep : Int) (j : Nat) (scale : Scale) (v : Option Rat) : Prop :=
  (∀ rest pulse, Occurrence chosen restStep j rest → Occurrence chosen pulseStep j pulse →
    IsResistance scale rest pulse v) ∧
  ((¬ ∃ rest, Occurrence chosen restStep j rest) ∨ (¬ ∃ pulse, Occurrence chosen pulseStep j pulse) → v = none)

/-- what the names of resistances mean: whether of the charge pulse, and the time scale -/
def resistanceNames : List (String × Bool × Scale) :=
  [("r_c_0s", true, .start), ("r_c_3s", true, .three), ("r_c_end", true, .final),
   ("r_d_0s", false, .start), ("r_d_3s", false, .three), ("r_d_end", false, .final)]

/-- `v` is the mean voltage of the last ten points in time -/
def MeanOfLastTen (w : List Row) (v : Rat) : Prop :=
  ∃ l, Recent 10 w l ∧ l.length = 10 ∧ Stats.IsMean (l.map Row.volt) v

/-- at least ten rows in the order of time, the last ten with the same voltage -/
def Settled (w : List Row) : Prop :=
  10 ≤ w.length ∧ w.Pairwise Before ∧ ∃ v, ∀ r ∈ w.drop (w.length - 10), r.volt = v

/-- the seven statistics of a list of differences, by name -/
def Statistics (suffix : String) (diffs : List Rat) (f : List (String × Val)) : Prop :=
  f = [("var_" ++ suffix, .stat "var" diffs), ("min_" ++ suffix, .stat "min" diffs),
    ("mean_" ++ suffix, .stat "mean" diffs), ("skew_" ++ suffix, .stat "skew" diffs),
    ("kurtosis_" ++ suffix, .stat "kurtosis" diffs), ("sum_" ++ suffix, .stat "sum" diffs),
    ("sum_square_" ++ suffix, .stat "sum_square" diffs)]

/-- `l` holds, window by window, a quantity of the first nine occurrences of a step -/
def PerWindow (rows : List Row) (s : Int) (q : List Row → Rat → Prop) (l : List Rat) : Prop :=
  (∀ j v, l[j]? = some v → ∃ w, Occurrence rows s j w ∧ q w v) ∧
  (∀ j w, j < 9 → Occurrence rows s j w → j < l.length)

/-- a row as `get_step_index` reads it -/
def asRead (r : Row) : StepRoles.Row :=
  ⟨r.cycleType.toList, r.cycle, r.step, r.counter, r.curr, r.time.getD 0⟩

/-- capacity and voltage of the rows that have a capacity -/
def Measured (w : List Row) : List (Rat × Rat) := w.filterMap (fun r => r.dchg.map (fun q => (q, r.volt)))

/-- the voltage differences of a curve against an earlier one, at its capacities strictly within those of the
earlier one -/
def differences (f : Rat → Rat) (earlier later : List (Rat × Rat)) : List Rat :=
  (later.filter (fun p => (∃ q ∈ earlier, q.1 < p.1) ∧ (∃ q ∈ earlier, p.1 < q.1))).map (fun p => f p.1 - p.2)

/-- the rows in the order of time -/
def InTime (rows sel : List Row) : Prop := sel.Perm rows ∧ sel.Pairwise Before

/-- the duration of an occurrence -/
def IsDuration (w : List Row) (d : Rat) : Prop :=
  ∃ a ∈ w, ∃ b ∈ w, ∃ x y, a.time = some x ∧ b.time = some y ∧ d = y - x ∧
    ∀ r ∈ w, ∀ t, r.time = some t → x ≤ t ∧ t ≤ y

/-- the time of its first row -/
def IsStart (w : List Row) (x : Rat) : Prop := (∃ a ∈ w, a.time = some x) ∧ ∀ r ∈ w, ∀ t, r.time = some t → x ≤ t

/-- its lowest voltage -/
def IsLowest (w : List Row) (v : Rat) : Prop := (∃ a ∈ w, a.volt = v) ∧ ∀ r ∈ w, v ≤ r.volt

/-- the point of a row of a rest that follows a pulse of duration `d`: `sqrt(t + d) - sqrt(t)` for the time `t` since
the begin of the rest, and the voltage above the lowest one -/
def IsPoint (root : Rat → Rat) (d start lowest : Rat) (r : Row) (p : Rat × Rat) : Prop :=
  ∃ t, r.time = some t ∧ p = (root (t - start + d) - root (t - start), r.volt - lowest)

/-- `m` is the slope of the best line through the points of the last third of a rest -/
def IsDiffusionSlope (root : Rat → Rat) (pulse rest : List Row) (m : Rat) : Prop :=
  ∃ d start lowest k l pts b, IsDuration pulse d ∧ IsStart rest start ∧ IsLowest rest lowest ∧
    (3 * k ≤ rest.length + 1 ∧ rest.length ≤ 3 * k + 1) ∧ Recent k rest l ∧
    List.Forall₂ (IsPoint root d start lowest) l pts ∧ CoreFeatures.BestLine pts m b

/-- `root` distinguishes the times after a pulse, as the square root does -/
def Distinguishes (root : Rat → Rat) : Prop :=
  ∀ d t t' : Rat, 0 < d → 0 ≤ t → t < t' → root (t' + d) - root t' ≠ root (t + d) - root t

end Beep.Spec.Hppc
