import Verif.Model.CoreFeatures
import Verif.Model.StepRoles
/-
HPPC features: `HPPCResistanceVoltageFeatures` of `beep/features/core.py` and its helpers in
`beep/features/featurizer_helpers.py`.
-/
namespace Beep.Hppc
open Beep Pandas CoreFeatures
open Beep.StepRoles (Role)

/-- a row of the interpolated diagnostic data.  The voltage is taken to be present
(core.py:13-88). -/
structure Row where
  cycle : Int
  cycleType : String
  step : Int
  counter : Int
  time : Option Rat
  volt : Rat
  curr : Option Rat
  dchg : Option Rat
  deriving DecidableEq, Repr

/-- order of `sort_values(by='test_time')`: NaN last (featurizer_helpers.py:34-159) -/
def leTime (a b : Row) : Bool := match a.time, b.time with
  | some x, some y => decide (x ≤ y)
  | none, some _ => false
  | _, none => true

/-- `sort_values(by='test_time')`; rows of equal time keep their order (simplification)
(featurizer_helpers.py:34-159) -/
def sortTime (rows : List Row) : List Row := sortBy leTime rows

/-- the time scales of a resistance (featurizer_helpers.py:104-193) -/
inductive Scale where
  | start | three | final
  deriving DecidableEq, Repr

/-- rows of an occurrence of a step (featurizer_helpers.py:34-159) -/
def ofCounter (rows : List Row) (c : Int) : List Row := rows.filter (fun r => r.counter = c)

/-- rows of a step (featurizer_helpers.py:34-159) -/
def ofStep (rows : List Row) (s : Int) : List Row := rows.filter (fun r => r.step = s)

/-- `x.step_index_counter.unique()` of the rows of a step (featurizer_helpers.py:34-159) -/
def counters (rows : List Row) (s : Int) : List Int := unique ((ofStep rows s).map Row.counter)

/-- `test_time - test_time.min() <= limit` (featurizer_helpers.py:104-159) -/
def within (limit : Rat) (first : Option Rat) (r : Row) : Bool := match subN r.time first with
  | some d => decide (d ≤ limit)
  | none => false

/-- the row of a pulse at a time scale, featurizer_helpers.py:144-157, from rows in the order of time -/
def pulseRow (scale : Scale) (pulse : List Row) : Option Row := match scale with
  | .final => pulse.getLast?
  | .start => (pulse.filter (within (1 / 1000) (minN (pulse.map Row.time)))).getLast?
  | .three => (pulse.filter (within 3 (minN (pulse.map Row.time)))).getLast?

/-- `a / b` of floats with NaN (featurizer_helpers.py:104-159) -/
def quot (a b : Option Rat) : Option Rat := match a, b with
  | some x, some y => divR x y
  | _, _ => none

/-- `res_calc` after the choice of the rows, featurizer_helpers.py:137-159 -/
def resistance (scale : Scale) (rest pulse : List Row) : Except Err (Option Rat) :=
  let rest := sortTime rest
  let pulse := sortTime pulse
  match rest.getLast?, pulseRow scale pulse with
  | some o, some p =>
    let i := meanN ((rest.drop (rest.length - 5)).map Row.curr)
    .ok (quot (some (p.volt - o.volt)) (subN p.curr i))
  | _, _ => .error .indexError

/-- `res_calc`, featurizer_helpers.py:104-159: the steps are found by their position, `None` if there
is no such occurrence -/
def resCalc (chosen : List Row) (soc : Nat) (charge : Bool) (scale : Scale) : Except Err (Option Rat) :=
  let cs := (((unique (chosen.map Row.step)).drop 1).take 5).map (counters chosen)
  let stepOcv := if charge then 2 else 0
  let stepCur := if charge then 3 else 1
  match (cs[stepOcv]?).bind (fun l => l[soc]?), (cs[stepCur]?).bind (fun l => l[soc]?) with
  | some a, some b => resistance scale (ofCounter chosen a) (ofCounter chosen b)
  | _, _ => .ok none

/-- `names`, featurizer_helpers.py:182 -/
def kinds : List (String × Bool × Scale) :=
  [("r_c_0s", true, .start), ("r_c_3s", true, .three), ("r_c_end", true, .final),
   ("r_d_0s", false, .start), ("r_d_3s", false, .three), ("r_d_end", false, .final)]

/-- the name and value of one cell, featurizer_helpers.py:187-191 -/
def cell (chosen : List Row) (q : (String × Bool × Scale) × Nat) : Except Err (String × Option Rat) :=
  match resCalc chosen q.2 q.1.2.1 q.1.2.2 with
  | .error e => .error e
  | .ok v => .ok (q.1.1 ++ "_" ++ toString q.2, v)

/-- the hppc rows with a current, featurizer_helpers.py:177-179 -/
def hppcRows (rows : List Row) : List Row := rows.filter (fun r => decide (r.cycleType = "hppc") && r.curr.isSome)

/-- rows of a cycle (featurizer_helpers.py:34-193) -/
def ofCycle (rows : List Row) (c : Int) : List Row := rows.filter (fun r => r.cycle = c)

/-- `get_resistance_soc_duration_hppc`, featurizer_helpers.py:162-193, positions from the front -/
def resistances (rows : List Row) (pos : Nat) : Except Err (List (String × Option Rat)) :=
  match (unique ((hppcRows rows).map Row.cycle))[pos]? with
  | none => .error .indexError
  | some c => Summary.mapE (cell (ofCycle (hppcRows rows) c)) (kinds.flatMap (fun k => (List.range 9).map (fun j => (k, j))))

/-- `get_dr_df`, featurizer_helpers.py:196-211, and the names given by core.py:64-69.  `None` counts as NaN. -/
def changes (rows : List Row) (pos : Nat) : Except Err (List (String × Option Rat)) :=
  match resistances rows 0 with
  | .error e => .error e
  | .ok r0 => match resistances rows pos with
    | .error e => .error e
    | .ok ri => .ok (List.zipWith (fun a b => (a.1 ++ "0", quot (subN b.2 a.2) a.2)) r0 ri)

/-- a feature: a number, or a statistic of the list of numbers (variance, skewness and so on of numpy and scipy,
left uninterpreted) (core.py:13-88) -/
inductive Val where
  | num (v : Option Rat)
  | stat (name : String) (arr : List Rat)
  deriving DecidableEq, Repr

/-- the seven columns of a list of differences, featurizer_helpers.py:93-99, 299-305; `min` of nothing raises -/
def sevenStats (suffix : String) (arr : List Rat) : Except Err (List (String × Val)) :=
  if arr.isEmpty then .error .valueError
  else .ok (["var", "min", "mean", "skew", "kurtosis", "sum", "sum_square"].map (fun s => (s ++ "_" ++ suffix, .stat s arr)))

/-- `df_i["voltage"].iloc[-10].mean()`, featurizer_helpers.py:46: one value -/
def tenthLast (rows : List Row) : Except Err Rat :=
  if rows.length < 10 then .error .indexError
  else match rows[rows.length - 10]? with
    | some r => .ok r.volt
    | none => .error .indexError

/-- `get_hppc_ocv_helper`, featurizer_helpers.py:34-48 -/
def ocvHelper (rows : List Row) (s : Int) : Except Err (List Rat) :=
  Summary.mapE (fun c => tenthLast (ofCounter (ofStep rows s) c)) ((counters rows s).take 9)

/-- `steps[role]` (featurizer_helpers.py:34-193) -/
def roleOf (d : Dict Role Int) (r : Role) : Except Err Int := match Dict.get? d r with
  | some s => .ok s
  | none => .error .keyError

/-- `list_minus`, featurizer_helpers.py:22-31 -/
def listMinus (a b : List Rat) : List Rat := List.zipWith (· - ·) a b

/-- `get_hppc_ocv`, featurizer_helpers.py:51-101.  `steps pos` is what `get_step_index` returns (modelled in
`StepRoles`). -/
def ocv (steps : Nat → Except Err (Dict Role Int)) (rows : List Row) (pos : Nat) : Except Err (List (String × Val)) :=
  let h := hppcRows rows
  let cycles := unique (h.map Row.cycle)
  match cycles[0]? with
  | none => .error .indexError
  | some c0 => do
    let d0 ← steps 0
    let d1 ← steps pos
    let s0 ← roleOf d0 .longRest
    let s1 ← roleOf d1 .longRest
    let v1 ← ocvHelper (ofCycle h c0) s0
    match cycles[pos]? with
    | none => .error .indexError
    | some c1 => do
      let v2 ← ocvHelper (ofCycle h c1) s1
      sevenStats "ocv" (listMinus v1 v2)

/-- capacity and voltage of the rows with a capacity (featurizer_helpers.py:232-307) -/
def curve (rows : List Row) : List (Rat × Rat) := rows.filterMap (fun r => r.dchg.map (fun q => (q, r.volt)))

/-- the points of the first cycle that are interpolated, featurizer_helpers.py:276-287: if the capacity ever
decreases by more than the threshold, the points after which it does not are deleted -/
def dropRepeated (lim : Rat) : List (Rat × Rat) → List (Rat × Rat)
  | p :: q :: l => if q.1 - p.1 ≥ -lim then dropRepeated lim (q :: l) else p :: dropRepeated lim (q :: l)
  | l => l

/-- `np.all(np.diff(Q) >= -d_capacity_min)` (featurizer_helpers.py:232-307) -/
def rising (lim : Rat) : List (Rat × Rat) → Bool
  | p :: q :: l => decide (q.1 - p.1 ≥ -lim) && rising lim (q :: l)
  | _ => true

/-- the nodes of the interpolation (featurizer_helpers.py:232-307) -/
def nodes (pts : List (Rat × Rat)) (hi lo : Rat) : List (Rat × Rat) :=
  if rising ((hi - lo) / 10000000) pts then pts else dropRepeated ((hi - lo) / 10000000) pts

/-- `np.var` (featurizer_helpers.py:232-307) -/
def variance (l : List Rat) : Rat :=
  let m := l.sum / l.length
  (l.map (fun x => (x - m) * (x - m))).sum / l.length

/-- `get_v_diff`, featurizer_helpers.py:232-307.  `spline` is `interp1d(kind="cubic")`, which may refuse its points;
the later steps are those of position 1, whatever `pos` is. -/
def vDiff (spline : List (Rat × Rat) → Except Err (Rat → Rat)) (steps : Nat → Except Err (Dict Role Int))
    (rows : List Row) (pos soc : Nat) : Except Err (Option (List (String × Val))) :=
  let h := rows.filter (fun r => r.cycleType = "hppc")
  let cycles := unique (h.map Row.cycle)
  match cycles[pos]?, cycles[0]? with
  | some c2, some c1 => do
    let first := (ofCycle h c1).filter (fun r => r.dchg.any (fun q => q < 8))
    let d1 ← steps 0
    let d2 ← steps 1
    let s2 ← roleOf d2 .dischargeToNextSoc
    let s1 ← roleOf d1 .dischargeToNextSoc
    match (counters first s1)[soc]?, (counters (ofCycle h c2) s2)[soc]? with
    | some k1, some k2 =>
      let pts1 := curve (ofCounter (ofStep first s1) k1)
      let pts2 := curve (ofCounter (ofStep (ofCycle h c2) s2) k2)
      match maxN (pts1.map (fun p => some p.1)), minN (pts1.map (fun p => some p.1)) with
      | some hi, some lo => do
        let f ← spline (nodes pts1 hi lo)
        let shared := pts2.filter (fun p => decide (lo < p.1) && decide (hi > p.1))
        let v := shared.map (fun p => f p.1 - p.2)
        if v ≠ [] ∧ variance v > 1 then .ok none
        else do
          let r ← sevenStats "v_diff" v
          .ok (some r)
      | _, _ => .error .valueError
    | _, _ => .ok none
  | _, _ => .error .indexError

/-- `d_curve_fitting`, featurizer_helpers.py:313-331: at least two points are needed; in exact arithmetic, for
points that are not all at one place -/
def slope (pts : List (Rat × Rat)) : Except Err Rat :=
  if pts.length < 2 then .error .typeError else .ok (polyfit pts).1

/-- the points of one window, featurizer_helpers.py:378-386.  `root` is the square root; NaN is refused by `curve_fit`. -/
def windowPoints (root : Rat → Rat) (discharge rest : List Row) : Option (List (Rat × Rat)) :=
  match maxN (discharge.map Row.time), minN (discharge.map Row.time), minN (rest.map Row.time),
      minN (rest.map (fun r => some r.volt)) with
  | some b, some a, some t0, some v0 =>
    rest.mapM (fun r => r.time.map (fun t => (root (t - t0 + (b - a)) - root (t - t0), r.volt - v0)))
  | _, _, _, _ => none

/-- `x[round(2 * len(x) / 3): len(x)]` (featurizer_helpers.py:334-391) -/
def lastThird {α : Type} (l : List α) : List α := l.drop (roundEven (2 * (l.length : Rat) / 3)).toNat

/-- one pass of the loop, featurizer_helpers.py:377-389 -/
def diffusionOne (root : Rat → Rat) (sel : List Row) (a b : Int) (i : Nat) : Except Err (String × Rat) :=
  match windowPoints root (ofCounter sel a) (ofCounter sel b) with
  | none => .error .valueError
  | some pts => match slope (lastThird pts) with
    | .error e => .error e
    | .ok m => .ok ("D_" ++ toString i, m)

/-- `get_diffusion_coeff`, featurizer_helpers.py:334-391 -/
def diffusion (root : Rat → Rat) (steps : Nat → Except Err (Dict Role Int)) (rows : List Row) (pos : Nat) :
    Except Err (List (String × Rat)) :=
  let h := rows.filter (fun r => r.cycleType = "hppc")
  match (unique (h.map Row.cycle))[pos]? with
  | none => .error .indexError
  | some c => do
    let sel := sortTime (ofCycle h c)
    let d ← steps pos
    let _ ← roleOf d .longRest
    let sd ← roleOf d .dischargePulse
    let sr ← roleOf d .shortRest
    let _ ← roleOf d .chargePulse
    let _ ← roleOf d .dischargeToNextSoc
    Summary.mapE (fun q : Nat × Int × Int => diffusionOne root sel q.2.1 q.2.2 q.1)
      ((((List.range 9).zip ((counters sel sd).zip (counters sel sr)))).drop 1)

/-- `(df - df_0) / df_0` of frames with different columns (featurizer_helpers.py:394-411) -/
def relative (d0 d : List (String × Rat)) : List (String × Val) :=
  (unique (d0.map Prod.fst ++ d.map Prod.fst)).map (fun n =>
    (n, .num (quot (subN (Dict.get? d n) (Dict.get? d0 n)) (Dict.get? d0 n))))

/-- `HPPCResistanceVoltageFeatures.create_features` from the filtered data on, core.py:54-88.  `steps` is
`get_step_index` with the parameters of `parameters_path`, `stepsDefault` with those of the default directory. -/
def features (root : Rat → Rat) (spline : List (Rat × Rat) → Except Err (Rat → Rat))
    (steps stepsDefault : Nat → Except Err (Dict Role Int)) (rows : List Row) (pos soc : Nat) :
    Except Err (List (String × Val)) := do
  let d0 ← diffusion root stepsDefault rows 0
  let d ← diffusion root stepsDefault rows pos
  let r ← changes rows pos
  let o ← ocv steps rows pos
  let v ← vDiff spline steps rows pos soc
  .ok (r.map (fun p => (p.1, .num p.2)) ++ o ++ v.getD [] ++ relative d0 d)

/-- `HPPCResistanceVoltageFeatures.validate`, core.py:22-40, for a diagnostic summary with these cycle types -/
def valid (types : List String) : Bool := types.any (fun t => containsSub "hppc".toList t.toList)

end Beep.Hppc
