import Verif.Model.Interp
import Verif.Model.Waveform
import Verif.Model.Text
/-
Rapid charging and driving waveforms: beep/utils/waveform.py and the functions
`insert_driving_parametersv1` and `insert_charging_parametersv1` of beep/protocol/maccor.py.

Floats are exact rationals.  The smooth charging curve (PCHIP interpolation and the offset found by
`fsolve`, utils/waveform.py:132-185 and 219-289) is not modelled: its samples are a parameter.  Directories and files are
left out, a file is its name and its lines.
-/
namespace Beep.ChargeWave
open Beep Pandas

/-- the fields of `RapidChargeWave`, utils/waveform.py:69-90; the bounds on the rates only
enter the smooth curve -/
structure Wave where
  finalRate : Rat
  socI : Rat
  socF : Rat
  deriving DecidableEq

/-- `self.soc_points`, utils/waveform.py:90 -/
def socPoints : Nat := 1000

/-- `np.heaviside(x, 0.5)` (utils/waveform.py:207-213) -/
def heaviside (x : Rat) : Rat := if x < 0 then 0 else if x = 0 then 1 / 2 else 1

/-- utils/waveform.py:204-210: the sum of the rows `c_rate_i` at one state of charge -/
def windows : List Rat → List Rat → Rat → Rat
  | m₁ :: m₂ :: ms, r :: rs, soc =>
    r * heaviside (soc - m₁) * heaviside (m₂ - soc) + windows (m₂ :: ms) rs soc
  | _, _, _ => 0

/-- utils/waveform.py:212-215: the current at one state of charge; `soc2` is the last mesh point -/
def rateAt (w : Wave) (rates mesh : List Rat) (soc : Rat) : Rat :=
  windows mesh rates soc +
    w.finalRate * heaviside (soc - mesh.getLastD 0) * heaviside (w.socF - soc)

/-- `np.linspace(self.soc_i, self.soc_f, self.soc_points)`, utils/waveform.py:201 -/
def socVector (w : Wave) : List Rat := Interp.linspace w.socI w.socF socPoints

/-- `get_input_current_multistep_soc_as_x`, utils/waveform.py:187-217.  Fewer than two mesh points
leave the local variables unbound, fewer rates than windows are out of range. -/
def multistep (w : Wave) (rates mesh : List Rat) : Except Err (List Rat) :=
  if mesh.length < 2 then .error .unboundLocal
  else if rates.length < mesh.length - 1 then .error .indexError
  else .ok ((socVector w).map (rateAt w rates mesh))

/-- `np.gradient` with unit spacing: central differences, one sided at the ends.  `prev` is the value
before (utils/waveform.py:303). -/
def gradientFrom : Rat → List Rat → List Rat
  | _, [] => []
  | p, [x] => [x - p]
  | p, x :: y :: ys => (y - p) / 2 :: gradientFrom x (y :: ys)

/-- `np.gradient` (utils/waveform.py:303) -/
def gradient : List Rat → List Rat
  | [] => []
  | [_] => []
  | x :: y :: ys => (y - x) :: gradientFrom x (y :: ys)

/-- `np.cumsum` (utils/waveform.py:303) -/
def cumsumFrom : Rat → List Rat → List Rat
  | _, [] => []
  | c, x :: xs => (c + x) :: cumsumFrom (c + x) xs

/-- `get_time_vector_from_c_vs_soc`, utils/waveform.py:291-304, for currents that are not zero -/
def timeVector (soc current : List Rat) : List Rat :=
  (cumsumFrom 0 ((current.zip (gradient soc)).map (fun p => 1 / p.1 * p.2))).map (fun t => t * 3600)

/-- `interp1d(x, y, bounds_error=False, fill_value=(y[0], y[-1]))` at one point, utils/waveform.py:113-130;
the points are sorted by `x`, the fill values are those of the arrays as given -/
def interp1d (x y : List Rat) (t : Rat) : Rat :=
  match sortBy (fun p q : Rat × Rat => decide (p.1 ≤ q.1)) (x.zip y) with
  | [] => 0
  | (x0, y0) :: rest =>
    if t < x0 then y.headD 0
    else if ((rest.getLast?).map Prod.fst).getD x0 < t then y.getLastD 0
    else Interp.interpFrom x0 y0 rest t

/-- the assertion utils/waveform.py:106, `np.all(np.diff(mesh_points)) > 0`: no difference is zero -/
def meshAccepted : List Rat → Bool
  | a :: b :: ms => decide (b - a ≠ 0) && meshAccepted (b :: ms)
  | _ => true

/-- utils/waveform.py:235-236: the middle of each window -/
def middles : List Rat → List Rat
  | a :: b :: ms => (a + b) / 2 :: middles (b :: ms)
  | _ => []

/-- utils/waveform.py:233-241: the points the smooth curve is drawn through -/
def meshMid (w : Wave) (mesh : List Rat) : List Rat :=
  w.socI :: middles mesh ++ [mesh.getLastD 0, w.socF * (101 / 100)]

/-- `PchipInterpolator` wants strictly increasing points, utils/waveform.py:248, 260 -/
def increasing : List Rat → Bool
  | a :: b :: ms => decide (a < b) && increasing (b :: ms)
  | _ => true

/-- `int(np.round(np.max(time), 0))` (utils/waveform.py:109-110) -/
def endTime (times : List Rat) : Except Err Int :=
  match maxN (times.map some) with
  | none => .error .valueError
  | some m => .ok (roundEven m)

/-- `get_currents_with_uniform_time_basis`, utils/waveform.py:92-130: smooth and stepwise currents, one per
second; `smooth` are the times and currents of the smooth curve.  A current of zero gives an infinite
time, which cannot become an integer number of seconds; a mesh the smooth curve cannot be drawn through
raises in 248 and 260.  The class of these two exceptions is not modelled. -/
def uniform (w : Wave) (rates mesh : List Rat) (smooth : List Rat × List Rat) :
    Except Err (List Rat × List Rat) :=
  if meshAccepted mesh = false then .error .assertionError
  else match multistep w rates mesh with
  | .error e => .error e
  | .ok current =>
    if increasing (meshMid w mesh) = false then .error .valueError
    else if current.any (fun c => c == 0) then .error .valueError
    else
      let times := timeVector (socVector w) current
      match endTime smooth.1, endTime times with
      | .error e, _ => .error e
      | _, .error e => .error e
      | .ok a, .ok b =>
        if a ≠ b then .error .assertionError
        else .ok ((List.range a.toNat).map (fun t : Nat => interp1d smooth.1 smooth.2 (t : Rat)),
                  (List.range a.toNat).map (fun t : Nat => interp1d times current (t : Rat)))

/-- the parameters of `insert_charging_parametersv1` (maccor.py:1373-1451) -/
structure Charging where
  project : Str
  kind : Str
  seqNum : Nat
  startSoc : Rat
  rate1 : Rat
  rate2 : Rat
  rate3 : Rat
  rate4 : Rat
  soc1 : Rat
  soc2 : Rat
  fastSocLimit : Rat
  cutoffVoltage : Rat
  voltageOffset : Rat
  capacity : Rat
  deriving DecidableEq

/-- protocol/maccor.py:1396-1412 and 1438-1439: the configuration of the charging waveform -/
def chargingConfig (c : Charging) (peak : Rat) : Waveform.Config :=
  { controlMode := "I".toList, valueScale := c.capacity * peak
    chargeLimitMode := "V".toList, chargeLimitValue := c.cutoffVoltage - c.voltageOffset
    dischargeLimitMode := "V".toList, dischargeLimitValue := 27 / 10
    chargeEndMode := "V".toList, chargeEndOperation := ">=".toList, chargeEndModeValue := 425 / 100
    dischargeEndMode := "V".toList, dischargeEndOperation := "<=".toList,
    dischargeEndModeValue := 25 / 10
    reportMode := "T".toList, reportValue := 3, range := "A".toList }

/-- protocol/maccor.py:1441: the name of the waveform -/
def chargingName (c : Charging) : Str :=
  c.project ++ '_' :: c.kind ++ '_' :: (toString c.seqNum).toList

/-- protocol/maccor.py:1413-1421 -/
def chargingWave (c : Charging) : Wave := ⟨c.rate4, c.startSoc, c.fastSocLimit⟩

/-- `insert_charging_parametersv1`, protocol/maccor.py:1373-1451: the name and the lines of the file -/
def insertCharging (c : Charging) (smooth : List Rat × List Rat) (maxRate : Rat) :
    Except Err (Str × List Waveform.Line) :=
  match uniform (chargingWave c) [c.rate1, c.rate2, c.rate3, c.rate4]
      [c.startSoc, c.soc1, c.soc2, c.fastSocLimit] smooth with
  | .error e => .error e
  | .ok (cs, cm) =>
    match maxN (cs.map some), maxN (cm.map some) with
    | some a, some b =>
      if maxRate < a ∨ maxRate < b then .error .assertionError
      else if c.kind = "smooth".toList then
        if 25 ≤ (chargingName c).length then .error .assertionError
        else (Waveform.generate (chargingConfig c a) .current cs).map (fun ls => (chargingName c, ls))
      else if c.kind = "step".toList then
        if 25 ≤ (chargingName c).length then .error .assertionError
        else (Waveform.generate (chargingConfig c b) .current cm).map (fun ls => (chargingName c, ls))
      else .error .notImplemented
    | _, _ => .error .valueError

/-- the name of a driving waveform, protocol/maccor.py:1366-1367; `int` cuts towards zero -/
def drivingName (profile : Str) (d : Waveform.Driving) : Str :=
  profile ++ "_x".toList ++ (toString d.repeats).toList ++ '_' ::
    (toString ((d.maxProfilePower * d.powerScaling).num.tdiv (d.maxProfilePower * d.powerScaling).den)).toList ++ ['W']

/-- the units of `convert_velocity_to_power_waveform`, utils/waveform.py:28-36 -/
def unitScale (units : Str) : Except Err Rat :=
  if units = "mph".toList then .ok (1600 / 3600)
  else if units = "kmph".toList then .ok (1000 / 3600)
  else if units = "mps".toList then .ok 1
  else .error .notImplemented

/-- `np.gradient(v, t)` inside: second order for uneven spacing; `h₁` and `h₂` are the spacings
(utils/waveform.py:53) -/
def slope (h₁ h₂ v₀ v₁ v₂ : Rat) : Rat :=
  (h₁ * h₁ * v₂ + (h₂ * h₂ - h₁ * h₁) * v₁ - h₂ * h₂ * v₀) / (h₁ * h₂ * (h₁ + h₂))

/-- `np.gradient(v, t)` after the first point; `p` is the point before (utils/waveform.py:53) -/
def slopesFrom : Rat × Rat → List (Rat × Rat) → List Rat
  | _, [] => []
  | p, [x] => [(x.2 - p.2) / (x.1 - p.1)]
  | p, x :: y :: ys => slope (x.1 - p.1) (y.1 - x.1) p.2 x.2 y.2 :: slopesFrom x (y :: ys)

/-- `np.gradient(v, t)`, at least two points (utils/waveform.py:53) -/
def slopes : List (Rat × Rat) → Except Err (List Rat)
  | x :: y :: ys => .ok ((y.2 - x.2) / (y.1 - x.1) :: slopesFrom x (y :: ys))
  | _ => .error .valueError

/-- utils/waveform.py:38-58: the power at one point from speed and acceleration; positive is charge -/
def powerAt (v a : Rat) : Rat :=
  -(1500 * a + 1 / 100 * 1500 * (98 / 10) + 1 / 2 * (1225 / 1000) * (34 / 100) * (175 / 100) * (v * v)) * v

/-- `convert_velocity_to_power_waveform`, utils/waveform.py:10-60, on the rows (time, velocity) of the
file.  Times are increasing (a repeated time would divide by zero). -/
def powers (units : Str) (rows : List (Rat × Rat)) : Except Err (List (Rat × Rat)) :=
  match unitScale units with
  | .error e => .error e
  | .ok s =>
    let scaled := rows.map (fun r => (r.1, r.2 * s))
    match slopes scaled with
    | .error e => .error e
    | .ok as => .ok ((scaled.zip as).map (fun p => (p.1.1, powerAt p.1.2 p.2)))

end Beep.ChargeWave
