import Verif.Model.IntracellV1
/-
Version 1 of the intracell analysis, `beep/features/intracell_analysis.py`: the smoothed derivatives of the initial match and
of the degraded cell, and the errors of fits that compare derivatives.  `x` is the list of parameters the optimiser varies.
-/
namespace Beep.IntracellV1
open Beep Pandas Beep.Intracell Beep.IntracellFit
open Beep.Interp (linspace)

/-- a step of `ewm(alpha=a).mean()`: the weighted mean and its weight after a further value.  It models pandas, not a file
of /repo (used at intracell_analysis.py:192-197, 764-769, 828-833). -/
def ewmStepBy (a : Rat) (s : Option (Rat × Rat)) (v : Option Rat) : Option (Rat × Rat) := match s, v with
  | none, none => none
  | none, some x => some (x, 1)
  | some (m, w), none => some (m, w * (1 - a))
  | some (m, w), some x => some ((w * (1 - a) * m + x) / (w * (1 - a) + 1), w * (1 - a) + 1)

/-- the means from a state on (pandas; used at intracell_analysis.py:192-197, 764-769, 828-833) -/
def ewmByFrom (a : Rat) : Option (Rat × Rat) → List (Option Rat) → List (Option Rat)
  | _, [] => []
  | s, v :: vs => (ewmStepBy a s v).map Prod.fst :: ewmByFrom a (ewmStepBy a s v) vs

/-- `.ewm(alpha=a).mean()` of the gradient of rows; pandas refuses `alpha` outside of (0, 1] with `ValueError`
(used at intracell_analysis.py:192-197, 764-769, 828-833) -/
def slopesBy (a : Rat) (rows : List (Option Rat × Option Rat)) : Except Err (List (Option Rat)) := match gradient rows with
  | .error e => .error e
  | .ok g => if 0 < a ∧ a ≤ 1 then .ok (ewmByFrom a none g) else .error .valueError

/-- `dVdQ` of a profile over its states of charge, intracell_analysis.py:827-840 -/
def dvdqBy (a : Rat) (c : Curve) : Except Err Curve := match slopesBy a (c.map (fun p => (some p.1, p.2))) with
  | .error e => .error e
  | .ok d => .ok ((c.map Prod.fst).zip d)

/-- `dQdV` and state of charge of a profile on the 1001 voltages from 2.7 V to 4.2 V, intracell_analysis.py:191-231 and
764-803.  `interp1d` of no points raises `ValueError`. -/
def dqdvBy (a : Rat) (c : Curve) : Except Err (List OverV) := match slopesBy a (c.map (fun p => (p.2, some p.1))) with
  | .error e => .error e
  | .ok d =>
    if (qPoints (d.zip c)).isEmpty then .error .valueError
    else .ok ((linspace lowerV upperV 1001).map (fun v =>
      ⟨v, (interpFill 0 0 (dqdvPoints (d.zip c)) v).getD 0, interpFill 0 100 (qPoints (d.zip c)) v⟩))

/-- both profiles with the last two parameters, `x[-2]` for the measured and `x[-1]` for the emulated one,
intracell_analysis.py:192-197, 764-769, 828-833 -/
def withWeights {α : Type} (f : Rat → Curve → Except Err α) (x : List Rat) (m : Matched) : Except Err (α × α) :=
  match x.reverse with
  | b :: a :: _ => match f a m.real with
    | .error e => .error e
    | .ok r => match f b m.emulated with
      | .error e => .error e
      | .ok s => .ok (r, s)
  | _ => .error .indexError

/-- `halfcell_degradation_matching_v3` with its parameters in `x`, intracell_analysis.py:903-909 -/
def degraded (pe ne1 pos neg : Curve) (x : List Rat) (real : Curve) : Except Err Matched := match x with
  | lli :: lamPe :: lamNe :: x2 :: _ => matchV3 pe ne1 pos neg lli lamPe lamNe x2 real
  | _ => .error .indexError

/-- `halfcell_initial_matching_v2` with its parameters in `x`, intracell_analysis.py:474-485: the third one is only needed
for a blended electrode -/
def started (spline : Curve → Rat → Option Rat) (pe ne1 pos neg : Curve) (x : List Rat) (real : Curve) : Except Err Matched :=
  match x with
  | ratio :: offset :: x2 :: _ => initialMatch spline pe ne1 pos neg ratio offset x2 real
  | [ratio, offset] =>
    if pos.isEmpty || neg.isEmpty then initialMatch spline pe ne1 pos neg ratio offset 0 real else .error .indexError
  | _ => .error .indexError

/-- the derivatives of both profiles of a match (intracell_analysis.py:189-233, 760-810, 823-850) -/
def slopesOf {α : Type} (f : Rat → Curve → Except Err α) (x : List Rat) (m : Except Err Matched) : Except Err (α × α) :=
  match m with
  | .error e => .error e
  | .ok m => withWeights f x m

/-- `distance.euclidean` of two columns; it models scipy, which refuses NaN with `ValueError`
(used at intracell_analysis.py:184, 240, 817, 857) -/
noncomputable def euclid (a b : List (Option Rat)) : Except Err ℝ :=
  if none ∈ a ∨ none ∈ b then .error .valueError
  else .ok (Real.sqrt ((((a.zip b).map (fun r => (r.1.getD 0 - r.2.getD 0) ^ 2)).sum : Rat) : ℝ))

/-- the distance of measured and emulated derivatives with a hundredth for every missing emulated one,
intracell_analysis.py:184-185, 240-241, 276-277, 333-334, 817-818, 857-858 -/
noncomputable def columnError (a b : List (Option Rat)) : Except Err ℝ := match euclid a b with
  | .error e => .error e
  | .ok d => .ok (d + 1 / 100 * (((b.filter Option.isNone).length : Nat) : ℝ))

/-- `except ValueError: error = 1000`, intracell_analysis.py:819-820, 859-861 -/
noncomputable def caught1000 (r : Except Err ℝ) : Except Err ℝ := match r with
  | .error .valueError => .ok 1000
  | .error e => .error e
  | .ok d => .ok d

/-- the error of the derivatives of both profiles (intracell_analysis.py:235-242, 812-821, 852-862) -/
noncomputable def errorOf {α : Type} (column : α → List (Option Rat)) (r : Except Err (α × α)) : Except Err ℝ := match r with
  | .error e => .error e
  | .ok (a, b) => columnError (column a) (column b)

/-- `get_error_dQdV_over_V_from_degradation_matching`, intracell_analysis.py:812-821 -/
noncomputable def errorDqdv (pe ne1 pos neg : Curve) (x : List Rat) (real : Curve) : Except Err ℝ :=
  caught1000 (errorOf (List.map (fun r => some r.dqdv)) (slopesOf dqdvBy x (degraded pe ne1 pos neg x real)))

/-- `get_error_dVdQ_over_SOC_from_degradation_matching`, intracell_analysis.py:852-862 -/
noncomputable def errorDvdq (pe ne1 pos neg : Curve) (x : List Rat) (real : Curve) : Except Err ℝ :=
  caught1000 (errorOf (List.map Prod.snd) (slopesOf dvdqBy x (degraded pe ne1 pos neg x real)))

/-- `get_error_dQdV_over_V_from_halfcell_initial_matching`, intracell_analysis.py:235-242 -/
noncomputable def initialErrorDqdv (spline : Curve → Rat → Option Rat) (pe ne1 pos neg : Curve) (x : List Rat) (real : Curve) :
    Except Err ℝ :=
  errorOf (List.map (fun r => some r.dqdv)) (slopesOf dqdvBy x (started spline pe ne1 pos neg x real))

/-- `get_error_dQdV_over_Q_…` (intracell_analysis.py:179-187), `get_error_dVdQ_over_Q_…` (268-279) and
`get_error_dVdQ_over_V_from_halfcell_initial_matching` (328-335): the derivatives are not smoothed -/
noncomputable def initialErrorOf (f : Curve → Except Err Curve) (spline : Curve → Rat → Option Rat) (pe ne1 pos neg : Curve)
    (ratio offset x2 : Rat) (real : Curve) : Except Err ℝ :=
  errorOf (List.map Prod.snd) (initialSlopes f spline pe ne1 pos neg ratio offset x2 real)

end Beep.IntracellV1
