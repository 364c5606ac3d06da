import Verif.Model.Dash
import Verif.Model.Pandas
/-
Maccor waveform files: beep/protocol/maccor.py 1334-1370 and 1454-1556.

A waveform is the column of powers (or currents), one row per second and no missing value; floats
are exact rationals.  The file is the list of its lines; writing it to disk and the file name are
left out.
-/
namespace Beep.Waveform
open Beep Pandas

/-- the instrument control parameters (conversion_schemas/maccor_waveform_conversion.yaml)
(protocol/maccor.py:1454-1556) -/
structure Config where
  controlMode : Str
  valueScale : Rat
  chargeLimitMode : Str
  chargeLimitValue : Rat
  dischargeLimitMode : Str
  dischargeLimitValue : Rat
  chargeEndMode : Str
  chargeEndOperation : Str
  chargeEndModeValue : Rat
  dischargeEndMode : Str
  dischargeEndOperation : Str
  dischargeEndModeValue : Rat
  reportMode : Str
  reportValue : Rat
  range : Str
  deriving DecidableEq

/-- conversion_schemas/maccor_waveform_conversion.yaml, `MACCOR_WAVEFORM_CONFIG` as imported
(protocol/maccor.py:1454-1556) -/
def defaultConfig : Config :=
  { controlMode := "P".toList, valueScale := 1
    chargeLimitMode := "V".toList, chargeLimitValue := 42 / 10
    dischargeLimitMode := "V".toList, dischargeLimitValue := 27 / 10
    chargeEndMode := "V".toList, chargeEndOperation := ">=".toList, chargeEndModeValue := 425 / 100
    dischargeEndMode := "V".toList, dischargeEndOperation := "<=".toList,
    dischargeEndModeValue := 25 / 10
    reportMode := "T".toList, reportValue := 3, range := "A".toList }

/-- one line of the file, maccor.py 1538-1553; a missing value is written as an empty field -/
structure Line where
  state : Str
  controlMode : Str
  value : Option Rat
  limitMode : Str
  limitValue : Rat
  duration : Nat
  endMode : Str
  operation : Str
  endModeValue : Rat
  reportMode : Str
  reportValue : Rat
  range : Str
  deriving DecidableEq

/-- which column the data frame has (maccor.py 1475, 1492) -/
inductive Kind where
  | power
  | current
  deriving DecidableEq

/-- maccor.py 1476, 1493: `x / max(abs(x)) * scale`; a waveform of zeros gives NaN, an empty one
raises -/
def scaled (scale : Rat) (xs : List Rat) : Except Err (List (Option Rat)) :=
  match maxN (xs.map (fun x => some (absR x))) with
  | none => .error .valueError
  | some m => .ok (xs.map (fun x => if m = 0 then none else some (x / m * scale)))

/-- running count of the `true` flags (`cumsum`) (protocol/maccor.py:1476, 1492) -/
def cumsum (c : Int) : List Bool → List Int
  | [] => []
  | b :: bs => (if b then c + 1 else c) :: cumsum (if b then c + 1 else c) bs

/-- maccor.py 1477, 1494: `diff().fillna(0).ne(0).cumsum()` -/
def counter (ys : List (Option Rat)) : List Int :=
  cumsum 0 ((diff ys).map (fun d => decide (d.getD 0 ≠ 0)))

/-- maccor.py 1478, 1495: the rows of each step, `groupby("step_counter")` -/
def groups (ys : List (Option Rat)) : List (List (Option Rat)) :=
  (groupKeys (counter ys)).map (fun k =>
    (((counter ys).zip ys).filter (fun r => r.1 = k)).map Prod.snd)

/-- `np.round(x, 5)` in exact arithmetic (protocol/maccor.py:1454-1556) -/
def round5 (x : Rat) : Rat := (roundEven (x * 100000) : Rat) / 100000

/-- maccor.py 1480-1536: the line of one step; `agg({"time": "count", "power": "first"})` takes the
number of rows and the first value that is present; NaN is not `<= 0` -/
def lineOf (cfg : Config) (kind : Kind) (g : List (Option Rat)) : Line :=
  let first := g.findSome? id
  let mode := if kind = .power ∧ cfg.controlMode = "P".toList ∧ first = some 0 then "I".toList
    else cfg.controlMode
  let discharge := match first with
    | some y => decide (y ≤ 0)
    | none => false
  if discharge then
    { state := "D".toList, controlMode := mode, value := first.map (fun y => round5 (absR y))
      limitMode := cfg.dischargeLimitMode, limitValue := cfg.dischargeLimitValue
      duration := g.length, endMode := cfg.dischargeEndMode
      operation := cfg.dischargeEndOperation, endModeValue := cfg.dischargeEndModeValue
      reportMode := cfg.reportMode, reportValue := cfg.reportValue, range := cfg.range }
  else
    { state := "C".toList, controlMode := mode, value := first.map (fun y => round5 (absR y))
      limitMode := cfg.chargeLimitMode, limitValue := cfg.chargeLimitValue
      duration := g.length, endMode := cfg.chargeEndMode
      operation := cfg.chargeEndOperation, endModeValue := cfg.chargeEndModeValue
      reportMode := cfg.reportMode, reportValue := cfg.reportValue, range := cfg.range }

/-- maccor.py 1454-1556 `generate_maccor_waveform_file` with a configuration -/
def generate (cfg : Config) (kind : Kind) (xs : List Rat) : Except Err (List Line) := do
  let ys ← scaled cfg.valueScale xs
  .ok ((groups ys).map (lineOf cfg kind))

/-- the parameters of `insert_driving_parametersv1` (maccor.py 1337-1344); `profile` is the power
waveform of the drive profile, the result of `convert_velocity_to_power_waveform` -/
structure Driving where
  profile : List Rat
  profileChargeLimit : Rat
  maxProfilePower : Rat
  powerScaling : Rat
  dischargeCutoffVoltage : Rat
  repeats : Nat

/-- maccor.py 1354-1357: the shared configuration after the four assignments -/
def drivingConfig (cfg : Config) (d : Driving) : Config :=
  { cfg with
    valueScale := d.maxProfilePower * d.powerScaling
    chargeLimitValue := d.profileChargeLimit
    chargeEndModeValue := d.profileChargeLimit + 5 / 100
    dischargeEndModeValue := d.dischargeCutoffVoltage - 1 / 10 }

/-- `list * n` (protocol/maccor.py:1454-1556) -/
def repeatList (n : Nat) (l : List Rat) : List Rat := (List.replicate n l).flatten

/-- the calls a process makes; the module level configuration is shared between them
(protocol/maccor.py:1454-1556) -/
inductive Call where
  /-- `generate_maccor_waveform_file(df, ...)`: default configuration -/
  | generate (kind : Kind) (xs : List Rat)
  /-- `generate_maccor_waveform_file(df, ..., mwf_config=cfg)` -/
  | generateWith (cfg : Config) (kind : Kind) (xs : List Rat)
  /-- `insert_driving_parametersv1(reg_params, ...)` -/
  | driving (d : Driving)

/-- one call: the shared configuration afterwards and the lines written.
maccor.py 1472-1473 (the default is the shared object) and 1346-1370 (the shared object is assigned
to); with no repetition the columns have different lengths and the frame constructor raises -/
def step (shared : Config) : Call → Config × Except Err (List Line)
  | .generate kind xs => (shared, Waveform.generate shared kind xs)
  | .generateWith cfg kind xs => (shared, Waveform.generate cfg kind xs)
  | .driving d =>
    (drivingConfig shared d,
      if d.repeats = 0 ∧ d.profile ≠ [] then .error .valueError
      else Waveform.generate (drivingConfig shared d) .power (repeatList d.repeats d.profile))

/-- the shared configuration after a history of calls (protocol/maccor.py:1454-1556) -/
def after (shared : Config) : List Call → Config
  | [] => shared
  | c :: cs => after (step shared c).1 cs

end Beep.Waveform
