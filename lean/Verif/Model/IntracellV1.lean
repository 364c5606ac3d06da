import Verif.Model.IntracellFit
/-
Version 1 of the intracell analysis, `beep/features/intracell_analysis.py`: the initial match of the two electrodes, the
errors that the two fits minimise and the derivatives of the initial match.  Distances are real numbers, everything else is
exact rational arithmetic.  The optimiser (`differential_evolution`) is not modelled.
-/
namespace Beep.IntracellV1
open Beep Pandas Beep.Intracell Beep.IntracellFit
open Beep.Interp (linspace)

/-- the negative electrode of the initial match, intracell_analysis.py:477-485 -/
def anode (ne1 pos neg : Curve) (x2 : Rat) : Except Err Curve :=
  if pos.isEmpty || neg.isEmpty then .ok ne1 else blend ne1 pos neg x2

/-- `halfcell_initial_matching_v2`, intracell_analysis.py:448-570.  `spline` stands for the quadratic interpolation of
scipy, which needs three points (549-554); it is arbitrary here.  Without a common voltage everything is NaN and it gets
no point.  A scaling value of 0 (numpy: infinite) is refused in the model.  The 2.7 of line 519 is `LOWER_VOLTAGE`. -/
def initialMatch (spline : Curve → Rat → Option Rat) (pe ne1 pos neg : Curve) (ratio offset x2 : Rat) (real : Curve) :
    Except Err Matched :=
  match anode ne1 pos neg x2 with
  | .error e => .error e
  | .ok ne => match realign (affine ratio offset pe) ne with                            -- 487-511
    | .error e => .error e
    | .ok (p, n) => match nearest lowerV ((fullCell p n).map Prod.snd) with              -- 513-519
      | none => .error .valueError
      | some k => match (fullCell p n)[k]? with
        | none => .error .indexError
        | some z =>
          let cell := present (clipped (moveBy (- z.1) (fullCell p n)))                  -- 521-533
          match range cell with                                                          -- 535-536
          | none => .error .valueError
          | some (_, top) =>
            if top = 0 ∨ cell.length < 3 ∨ real.isEmpty then .error .valueError
            else .ok ⟨affine (100 / top) 0 (moveBy (- z.1) p), affine (100 / top) 0 (moveBy (- z.1) n),   -- 538-546
              (linspace 0 100 1001).map (fun x => (x, interpFill lowerV upperV real x)),                  -- 555-568
              (linspace 0 100 1001).map (fun x => (x, spline (affine (100 / top) 0 cell) x))⟩             -- 549-563

/-- the rows in which both profiles have a voltage, with the squared difference, intracell_analysis.py:677-684 -/
def bothRows (real em : Curve) : List Rat :=
  (real.zip em).filterMap (fun r => match r.1.2, r.2.2 with
    | some v, some w => some ((v - w) ^ 2)
    | _, _ => none)

/-- the number of rows without a voltage (intracell_analysis.py:686-688, 898) -/
def missing (c : Curve) : Nat := (c.filter (fun p => p.2.isNone)).length

/-- `_get_error_from_halfcell_initial_matching`, intracell_analysis.py:674-690 -/
noncomputable def initialError (spline : Curve → Rat → Option Rat) (pe ne1 pos neg : Curve) (ratio offset x2 : Rat)
    (real : Curve) : Except Err ℝ :=
  match initialMatch spline pe ne1 pos neg ratio offset x2 real with
  | .error e => .error e
  | .ok m => .ok (Real.sqrt (((bothRows m.real m.emulated).sum : Rat) : ℝ) + 1 / 100 * (missing m.emulated : ℝ))

/-- `get_V_over_SOC_from_degradation_matching`, intracell_analysis.py:864-890 -/
def vSoc (pe ne1 pos neg : Curve) (lli lamPe lamNe x2 : Rat) (real : Curve) : Except Err Matched :=
  match matchV3 pe ne1 pos neg lli lamPe lamNe x2 real with
  | .error e => .error e
  | .ok m => match range (present m.real) with
    | none => .error .valueError
    | some (a, b) => .ok ⟨m.pe, m.ne,
        (linspace a b 1001).map (fun x => (x, interp ((kept m.real m.emulated).map Prod.fst) x)),
        (linspace a b 1001).map (fun x => (x, interp ((kept m.real m.emulated).map Prod.snd) x))⟩

/-- the rows that have an emulated voltage: squared difference of both columns, intracell_analysis.py:896-897.  `none` if
the measured voltage is NaN, which `distance.euclidean` refuses. -/
def gaps (real em : Curve) : List (Option Rat) :=
  (real.zip em).filterMap (fun r => r.2.2.map (fun w => r.1.2.map (fun v => (r.1.1 - r.2.1) ^ 2 + (v - w) ^ 2)))

/-- the error of two aligned profiles, intracell_analysis.py:896-898 -/
noncomputable def apart (real em : Curve) : Except Err ℝ :=
  if none ∈ gaps real em then .error .valueError
  else .ok (Real.sqrt ((((gaps real em).filterMap id).sum : Rat) : ℝ) + 1 / 1000 * (missing em : ℝ))

/-- `except ValueError: error = 100`, intracell_analysis.py:899-900 -/
noncomputable def caught100 (r : Except Err ℝ) : Except Err ℝ := match r with
  | .error .valueError => .ok 100
  | .error e => .error e
  | .ok d => .ok d

/-- `_get_error_from_degradation_matching`, intracell_analysis.py:892-901 -/
noncomputable def errorV1 (pe ne1 pos neg : Curve) (lli lamPe lamNe x2 : Rat) (real : Curve) : Except Err ℝ :=
  caught100 (match vSoc pe ne1 pos neg lli lamPe lamNe x2 real with
    | .error e => .error e
    | .ok m => apart m.real m.emulated)

/-! ### derivatives of the initial match -/

/-- `dVdQ` of a profile over its states of charge, without smoothing, intracell_analysis.py:244-266 -/
def dvdqOverQ (c : Curve) : Except Err Curve := match gradient (c.map (fun p => (some p.1, p.2))) with
  | .error e => .error e
  | .ok g => .ok ((c.map Prod.fst).zip g)

/-- `dQdV` of a profile over its states of charge, without smoothing, intracell_analysis.py:157-177 -/
def dqdvOverQ (c : Curve) : Except Err Curve := match gradient (c.map (fun p => (p.2, some p.1))) with
  | .error e => .error e
  | .ok g => .ok ((c.map Prod.fst).zip g)

/-- the "dVdQ" of a profile on the 1001 voltages from 2.7 V to 4.2 V, intracell_analysis.py:280-326: the derivative that
is interpolated is `np.gradient(SOC_aligned, Voltage_aligned)`.  `interp1d` of no points raises `ValueError`. -/
def dvdqOverV (c : Curve) : Except Err Curve := match gradient (c.map (fun p => (p.2, some p.1))) with
  | .error e => .error e
  | .ok g =>
    if (dqdvPoints (g.zip c)).isEmpty then .error .valueError
    else .ok ((linspace lowerV upperV 1001).map (fun v => (v, interpFill 0 0 (dqdvPoints (g.zip c)) v)))

/-- a derivative of both profiles of the initial match: `get_dVdQ_over_Q_…` (244-266), `get_dQdV_over_Q_…` (157-177) and
`get_dVdQ_over_V_from_halfcell_initial_matching` (280-326) of intracell_analysis.py -/
def initialSlopes (f : Curve → Except Err Curve) (spline : Curve → Rat → Option Rat) (pe ne1 pos neg : Curve)
    (ratio offset x2 : Rat) (real : Curve) : Except Err (Curve × Curve) :=
  match initialMatch spline pe ne1 pos neg ratio offset x2 real with
  | .error e => .error e
  | .ok m => match f m.real with
    | .error e => .error e
    | .ok a => match f m.emulated with
      | .error e => .error e
      | .ok b => .ok (a, b)

end Beep.IntracellV1
