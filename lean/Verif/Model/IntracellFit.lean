import Mathlib.Analysis.Real.Sqrt
import Verif.Model.Intracell
/-
The error that the intracell analysis (version 2) minimises and the emulation of a cell without a measurement,
`beep/features/intracell_analysis_v2.py`.  Distances are real numbers, everything else is exact rational arithmetic.
The optimiser (`differential_evolution`) is not modelled.
-/
namespace Beep.IntracellFit
open Beep Pandas Beep.Intracell
open Beep.Interp (linspace)

/-! ### a cell without a measurement -/

/-- a curve on 1001 evenly spaced places over the range in which it has voltages, intracell_analysis_v2.py:585-604 and
497-512.  `interp1d` of no points raises `ValueError`.  (A curve with one point
only is NaN in scipy: not modelled, the theorems are about curves with two places at least.) -/
def resampled (c : Curve) : Except Err Curve := match range (present c) with
  | none => .error .valueError
  | some (a, b) => .ok ((linspace a b 1001).map (fun x => (x, interp (present c) x)))

/-- `halfcell_degradation_matching_ah_no_real`, intracell_analysis_v2.py:516-606: positive electrode, negative electrode
and full cell -/
def alone (pe ne1 pos neg : Curve) (lli qpe qne x2 : Rat) : Except Err (Curve × Curve × Curve) :=
  match imposeScale pe ne1 pos neg lli qpe qne x2 with
  | .error e => .error e
  | .ok (p, n) =>
    let full := clipped (fullCell p n)
    match argminN (full.map Prod.snd) with
    | none => .error .valueError
    | some k => match full[k]? with
      | none => .error .indexError
      | some z => match resampled (moveBy (- z.1) full) with
        | .error e => .error e
        | .ok em => .ok (moveBy (- z.1) p, moveBy (- z.1) n, em)

/-- `get_v_over_q_from_degradation_matching_ah_no_real`, intracell_analysis_v2.py:470-514 -/
def vqAlone (pe ne1 pos neg : Curve) (lli qpe qne x2 : Rat) : Except Err (Curve × Curve × Curve) :=
  match alone pe ne1 pos neg lli qpe qne x2 with
  | .error e => .error e
  | .ok (p, n, em) => match resampled em with
    | .error e => .error e
    | .ok out => .ok (p, n, out)

/-! ### the three representations -/

/-- rows of both profiles where the measured one has a voltage, intracell_analysis_v2.py:451-457 -/
def kept (real emulated : Curve) : List ((Rat × Option Rat) × (Rat × Option Rat)) :=
  (real.zip emulated).filter (fun r => r.1.2.isSome)

/-- `get_v_over_q_from_degradation_matching_ah`, intracell_analysis_v2.py:419-468 -/
def vq (pe ne1 pos neg : Curve) (lli qpe qne x2 : Rat) (real : Curve) : Except Err Matched :=
  match matchAh pe ne1 pos neg lli qpe qne x2 real with
  | .error e => .error e
  | .ok m => match range (present m.real) with
    | none => .error .valueError
    | some (a, b) => .ok ⟨m.pe, m.ne,
        (linspace a b 1001).map (fun x => (x, interp ((kept m.real m.emulated).map Prod.fst) x)),
        (linspace a b 1001).map (fun x => (x, interp ((kept m.real m.emulated).map Prod.snd) x))⟩

/-- a quotient, NaN if a part is or the divisor is 0 (numpy: infinite; simplification)
(`np.gradient` at intracell_analysis_v2.py:319-323) -/
def divN (a b : Option Rat) : Option Rat := match a, b with
  | some x, some y => if y = 0 then none else some (x / y)
  | _, _ => none

/-- the slope between two rows `(x, y)` (`np.gradient` at intracell_analysis_v2.py:319-323, 397-401) -/
def slope (p q : Option Rat × Option Rat) : Option Rat := divN (subN q.2 p.2) (subN q.1 p.1)

/-- the slope at a row with two neighbours: each of the slopes to them weighted with the width of the other side
(`np.gradient` at intracell_analysis_v2.py:319-323, 397-401) -/
def middle (p q r : Option Rat × Option Rat) : Option Rat := match slope p q, slope q r, subN q.1 p.1, subN r.1 q.1 with
  | some s, some t, some a, some b => divN (some (b * s + a * t)) (some (a + b))
  | _, _, _, _ => none

/-- the slopes of the rows after the first one `p`, the second one being `q`
(`np.gradient` at intracell_analysis_v2.py:319-323, 397-401) -/
def slopes : Option Rat × Option Rat → Option Rat × Option Rat → List (Option Rat × Option Rat) → List (Option Rat)
  | p, q, [] => [slope p q]
  | p, q, r :: rest => middle p q r :: slopes q r rest

/-- `np.gradient(y, x)` for rows `(x, y)`; it models numpy, not a file of /repo.  Fewer than two rows raise `ValueError`
(used at intracell_analysis_v2.py:319-323, 397-401). -/
def gradient (rows : List (Option Rat × Option Rat)) : Except Err (List (Option Rat)) := match rows with
  | p :: q :: rest => .ok (slope p q :: slopes p q rest)
  | _ => .error .valueError

/-- a step of `ewm(com=0.1).mean()`: the weighted mean and its weight after a further value.  It models pandas, not a file
of /repo (used at intracell_analysis_v2.py:319-323, 397-401). -/
def ewmStep (s : Option (Rat × Rat)) (v : Option Rat) : Option (Rat × Rat) := match s, v with
  | none, none => none
  | none, some x => some (x, 1)
  | some (m, w), none => some (m, w / 11)
  | some (m, w), some x => some ((w / 11 * m + x) / (w / 11 + 1), w / 11 + 1)

/-- the means from a state on (pandas; used at intracell_analysis_v2.py:319-323, 397-401) -/
def ewmFrom : Option (Rat × Rat) → List (Option Rat) → List (Option Rat)
  | _, [] => []
  | s, v :: vs => (ewmStep s v).map Prod.fst :: ewmFrom (ewmStep s v) vs

/-- `.ewm(0.1).mean()` (pandas; used at intracell_analysis_v2.py:319-323, 397-401) -/
def ewm (vs : List (Option Rat)) : List (Option Rat) := ewmFrom none vs

/-- `dVdQ` of a profile, smoothed, with its capacities, intracell_analysis_v2.py:397-409 -/
def dvdqOf (c : Curve) : Except Err Curve := match gradient (c.map (fun p => (some p.1, p.2))) with
  | .error e => .error e
  | .ok g => .ok ((c.map Prod.fst).zip (ewm g))

/-- `dQdV` of a profile, smoothed, with its rows, intracell_analysis_v2.py:319-330 -/
def dqdvOf (c : Curve) : Except Err (List (Option Rat × (Rat × Option Rat))) :=
  match gradient (c.map (fun p => (p.2, some p.1))) with
  | .error e => .error e
  | .ok g => .ok ((ewm g).zip c)

/-- `dQdV` by voltage, intracell_analysis_v2.py:335-338 -/
def dqdvPoints (rows : List (Option Rat × (Rat × Option Rat))) : Curve :=
  rows.filterMap (fun r => r.2.2.map (fun v => (v, r.1)))

/-- capacity by voltage, intracell_analysis_v2.py:339-341 -/
def qPoints (rows : List (Option Rat × (Rat × Option Rat))) : Curve :=
  rows.filterMap (fun r => r.2.2.map (fun v => (v, some r.2.1)))

/-- a row of `dQdV` over voltage (intracell_analysis_v2.py:351-357) -/
structure OverV where
  volt : Rat
  dqdv : Rat
  q : Option Rat
  deriving DecidableEq, Repr

/-- `dQdV` and capacity on the 1001 voltages from 2.7 V to 4.2 V, intracell_analysis_v2.py:332-357.  `top` is the largest
capacity of the measured profile.  `interp1d` of no points raises `ValueError`. -/
def overV (top : Rat) (c : Curve) : Except Err (List OverV) := match dqdvOf c with
  | .error e => .error e
  | .ok rows =>
    if (qPoints rows).isEmpty then .error .valueError
    else .ok ((linspace lowerV upperV 1001).map (fun v =>
      ⟨v, (interpFill 0 0 (dqdvPoints rows) v).getD 0, interpFill 0 top (qPoints rows) v⟩))

/-- `get_dqdv_over_v_from_degradation_matching_ah`, intracell_analysis_v2.py:286-364: measured and emulated `dQdV` -/
def dqdv (pe ne1 pos neg : Curve) (lli qpe qne x2 : Rat) (real : Curve) : Except Err (List OverV × List OverV) :=
  match matchAh pe ne1 pos neg lli qpe qne x2 real with
  | .error e => .error e
  | .ok m => match range m.real with
    | none => .error .valueError
    | some (_, top) => match overV top m.real with
      | .error e => .error e
      | .ok a => match overV top m.emulated with
        | .error e => .error e
        | .ok b => .ok (a, b)

/-- `get_dvdq_over_q_from_degradation_matching_ah`, intracell_analysis_v2.py:366-417: measured and emulated `dVdQ` -/
def dvdq (pe ne1 pos neg : Curve) (lli qpe qne x2 : Rat) (real : Curve) : Except Err (Curve × Curve) :=
  match matchAh pe ne1 pos neg lli qpe qne x2 real with
  | .error e => .error e
  | .ok m => match dvdqOf m.real with
    | .error e => .error e
    | .ok a => match dvdqOf m.emulated with
      | .error e => .error e
      | .ok b => .ok (a, b)

/-! ### distances -/

/-- `dropna` of a frame with two columns, the first of them complete, intracell_analysis_v2.py:664-665 -/
def dropna (c : Curve) : List (Rat × Rat) := c.filterMap (fun p => p.2.map (fun v => (p.1, v)))

/-- arithmetic mean (`np.var` in `cdist` at intracell_analysis_v2.py:666) -/
def mean (l : List Rat) : Rat := l.sum / (l.length : Rat)

/-- `np.var(…, ddof=1)` in `cdist` (used at intracell_analysis_v2.py:666) -/
def variance (l : List Rat) : Rat := (l.map (fun x => (x - mean l) ^ 2)).sum / ((l.length : Rat) - 1)

/-- the standardised Euclidean distance for variances `v` and `w`; `cdist` of scipy, not a file of /repo
(used at intracell_analysis_v2.py:666) -/
noncomputable def seuclidean (v w : Rat) (p q : Rat × Rat) : ℝ :=
  Real.sqrt (((p.1 - q.1) ^ 2 / v + (p.2 - q.2) ^ 2 / w : Rat) : ℝ)

/-- least of numbers (`error_matrix.min(axis=1)`, intracell_analysis_v2.py:667) -/
noncomputable def least : List ℝ → ℝ
  | [] => 0
  | [d] => d
  | d :: ds => min d (least ds)

/-- mean over the points `xa` of the distance to the nearest point of `xb`, intracell_analysis_v2.py:666-668, NaN being
`none`.  The variances are those of all points together; one of 0 makes every distance NaN (0 / 0).  The least of no
distances raises `ValueError`, the mean of none is NaN. -/
noncomputable def meanNearest (xa xb : List (Rat × Rat)) : Except Err (Option ℝ) :=
  if xa.isEmpty then .ok none
  else if xb.isEmpty then .error .valueError
  else
    let v := variance ((xa ++ xb).map Prod.fst)
    let w := variance ((xa ++ xb).map Prod.snd)
    if v = 0 ∨ w = 0 then .ok none
    else .ok (some ((xa.map (fun p => least (xb.map (seuclidean v w p)))).sum / (xa.length : ℝ)))

/-- `except ValueError: error = 100`, intracell_analysis_v2.py:670-672 -/
noncomputable def caught (r : Except Err (Option ℝ)) : Except Err (Option ℝ) := match r with
  | .error .valueError => .ok (some 100)
  | .error e => .error e
  | .ok d => .ok d

/-- the points that are compared (intracell_analysis_v2.py:637-674, 678-721, 723-770): capacity and voltage; voltage and
`dQdV`; capacity and `dVdQ` above 0.5 Ah -/
def compared (metric : Metric) (pe ne1 pos neg : Curve) (lli qpe qne x2 : Rat) (real : Curve) :
    Except Err (List (Rat × Rat) × List (Rat × Rat)) := match metric with
  | .vq => match vq pe ne1 pos neg lli qpe qne x2 real with                              -- 660-665
    | .error e => .error e
    | .ok m => .ok (dropna m.real, dropna m.emulated)
  | .dqdv => match dqdv pe ne1 pos neg lli qpe qne x2 real with                          -- 703-712
    | .error e => .error e
    | .ok (a, b) => .ok (a.map (fun r => (r.volt, r.dqdv)), b.map (fun r => (r.volt, r.dqdv)))
  | .dvdq => match dvdq pe ne1 pos neg lli qpe qne x2 real with                          -- 748-761
    | .error e => .error e
    | .ok (a, b) => .ok ((dropna a).filter (fun p => decide (1 / 2 < p.1)), (dropna b).filter (fun p => decide (1 / 2 < p.1)))

/-- `_get_error_from_degradation_matching_v_q`, `…_dqdv` and `…_dvdq`: the error itself, intracell_analysis_v2.py:637-674,
678-721 and 723-770 -/
noncomputable def errorBy (metric : Metric) (pe ne1 pos neg : Curve) (lli qpe qne x2 : Rat) (real : Curve) :
    Except Err (Option ℝ) :=
  caught (match compared metric pe ne1 pos neg lli qpe qne x2 real with
    | .error e => .error e
    | .ok (xa, xb) => meanNearest xa xb)

/-- `_get_error_from_degradation_matching_ah`, intracell_analysis_v2.py:608-635 -/
noncomputable def error (errorType : String) (pe ne1 pos neg : Curve) (lli qpe qne x2 : Rat) (real : Curve) :
    Except Err (Option ℝ) := errorBy (metricOf errorType) pe ne1 pos neg lli qpe qne x2 real

/-- `_get_error_from_synthetic_fitting_ah`, intracell_analysis_v2.py:772-806, which `solve_emulated_degradation`
(896-931) minimises -/
noncomputable def syntheticError (errorType : String) (pe ne1 pos neg : Curve) (lli qpe qne x2 : Rat) (real : Curve) :
    Except Err (Option ℝ) := match errorBy (metricSynthetic errorType) pe ne1 pos neg lli qpe qne x2 real with
  | .error .runtimeError => .ok (some 100)
  | r => r

end Beep.IntracellFit
