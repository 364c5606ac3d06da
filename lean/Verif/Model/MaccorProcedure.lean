import Verif.Model.Text
import Verif.Model.Pandas
/-
Maccor procedure files: beep/protocol/maccor.py, class `Procedure`.

A procedure is the list `["MaccorTestProcedure"]["ProcSteps"]["TestStep"]`; the header of the file
is not touched by any modelled function.  Floats are exact rationals.
-/
namespace Beep.MaccorProcedure
open Beep Text

/-- a value of the procedure dictionary: text read from the file, a number written by the code,
`None` for an empty element (maccor.py:42-161) -/
inductive Val where
  | text (s : Str)
  | num (q : Rat)
  | null
  deriving DecidableEq

/-- one `EndEntry` (the keys used by the code) (maccor.py:96-161) -/
structure EndE where
  special : Option Str
  endType : Str
  oper : Option Str
  step : Str
  value : Val
  deriving DecidableEq

/-- `step["Ends"]["EndEntry"]`: a dictionary when the file has one entry, else a list
(maccor.py:96-161) -/
inductive Ends where
  | one (e : EndE)
  | many (es : List EndE)
  deriving DecidableEq

/-- one `ReportEntry` (maccor.py:96-161) -/
structure Rep where
  repType : Str
  value : Val
  deriving DecidableEq

/-- `step["Reports"]["ReportEntry"]` (maccor.py:96-161) -/
inductive Reps where
  | one (r : Rep)
  | many (rs : List Rep)
  deriving DecidableEq

/-- one `TestStep`; `other` holds the keys no modelled function writes except
`insert_maccor_waveform` (Range, Option1..3) and the ones nothing writes (StepNote)
(maccor.py:65-161) -/
structure Step where
  stepType : Str
  stepMode : Option Str
  stepValue : Val
  limits : Option (Dict Str Val)
  ends : Option Ends
  reports : Option Reps
  other : Dict Str Val
  deriving DecidableEq

/-! ### Formatting (maccor.py 60-119) -/

/-- `while len(x) < 8: x = x.center(8)`: one round is enough (maccor.py 73-74, 77-78, 100-101,
110-111) -/
def pad8 (s : Str) : Str := if s.length < 8 then center 8 s else s

/-- maccor.py 97-106 `ends_whitespace` -/
def formatEnd (e : EndE) : EndE :=
  { e with
    special := some (e.special.getD [' '])
    endType := pad8 e.endType
    oper := e.oper.map (fun o => if o.length < 2 then center 3 o else ljust 3 o) }

/-- maccor.py 108-111 `reports_whitespace` -/
def formatRep (r : Rep) : Rep := { r with repType := pad8 r.repType }

/-- maccor.py 79-89: list or dictionary -/
def formatEnds : Ends → Ends
  | .one e => .one (formatEnd e)
  | .many es => .many (es.map formatEnd)

/-- maccor.py 90-95 -/
def formatReps : Reps → Reps
  | .one r => .one (formatRep r)
  | .many rs => .many (rs.map formatRep)

/-- maccor.py 71-95, the body of the loop of `_format_maccor` -/
def formatStep (s : Step) : Step :=
  { s with
    stepType := pad8 s.stepType
    stepMode := some (pad8 (s.stepMode.getD [' ']))
    ends := s.ends.map formatEnds
    reports := s.reports.map formatReps }

/-- maccor.py 60-95 `_format_maccor`: a formatted copy -/
def formatMaccor (p : List Step) : List Step := p.map formatStep

/-! ### Edits (maccor.py 163-180, 1302-1331) -/

/-- maccor.py 163-180 `modify_step_value` -/
def modifyStepValue (num : Int) (ty : Str) (v : Val) (p : List Step) : List Step :=
  p.mapIdx (fun i s => if (i : Int) = num ∧ s.stepType = ty then { s with stepValue := v } else s)

/-- maccor.py 1321-1329, the body of the inner loop; an empty new key counts as none -/
def skipEnd (maxV minV : Rat) (key : Str) (newKey : Option Str) (e : EndE) : EndE :=
  let goto := match newKey with
    | some k => if k = [] then e.step else k
    | none => e.step
  if e.step = key ∧ e.endType = "Voltage".toList ∧ e.oper = some ">=".toList then
    { e with value := .num maxV, step := goto }
  else if e.step = key ∧ e.endType = "Voltage".toList ∧ e.oper = some "<=".toList then
    { e with value := .num minV, step := goto }
  else e

/-- maccor.py 1318-1320: only end entries given as a list are looked at -/
def skipStep (maxV minV : Rat) (key : Str) (newKey : Option Str) (s : Step) : Step :=
  match s.ends with
  | some (.many es) => { s with ends := some (.many (es.map (skipEnd maxV minV key newKey))) }
  | _ => s

/-- maccor.py 1302-1331 `set_skip_to_end_diagnostic` -/
def setSkip (maxV minV : Rat) (key : Str) (newKey : Option Str) (p : List Step) : List Step :=
  p.map (skipStep maxV minV key newKey)

/-! ### Writing durations -/

/-- the digit `n < 10` (needed for the time texts of maccor.py:290-528) -/
def digit (n : Nat) : Char := Char.ofNat (48 + n)

/-- two digits, `%02d` of a number below 100 (needed for the time texts of maccor.py:290-528) -/
def two (n : Nat) : Str := [digit (n / 10), digit (n % 10)]

/-- `time.strftime("%H:%M:%S", time.gmtime(t))` for a whole number of seconds: the time of day of
the instant `t` after the epoch (e.g. maccor.py 395-397) -/
def hms (t : Int) : Str :=
  let d := (t % 86400).toNat
  two (d / 3600) ++ [':'] ++ two (d / 60 % 60) ++ [':'] ++ two (d % 60)

/-- `round(x, 3)` / `round(x, 4)` with `k = 1000`, `10000`, in exact arithmetic
(maccor.py:290-528, 799-939) -/
def roundTo (k : Nat) (x : Rat) : Rat := (Pandas.roundEven (x * k) : Rat) / k

/-- `int(round(x))` (maccor.py:290-528, 799-939) -/
def nearest (x : Rat) : Int := Pandas.roundEven x

/-! ### The insert functions

All of them are straight line programs of assertions and assignments on the steps.  They are
modelled by the list of these instructions, in the order of the source. -/

/-- which end entry: `["EndEntry"]` itself or `["EndEntry"][k]`
(the statements of maccor.py:290-528, 799-939) -/
inductive Sel where
  | one
  | nth (k : Nat)
  deriving DecidableEq

/-- one statement of an insert function (the statements of maccor.py:290-528, 799-939) -/
inductive Instr where
  /-- `assert steps[i]["StepType"] == s` -/
  | isType (i : Nat) (s : Str)
  /-- `assert steps[i]["StepMode"] == s` -/
  | isMode (i : Nat) (s : Str)
  /-- `assert steps[i]["Ends"]["EndEntry"][k]["EndType"] == s` -/
  | endIs (i : Nat) (k : Sel) (s : Str)
  /-- `assert steps[i]["Ends"]["EndEntry"][k]["Value"] != v` -/
  | endNe (i : Nat) (k : Sel) (v : Val)
  /-- `steps[i]["StepValue"] = v` -/
  | setValue (i : Nat) (v : Val)
  /-- `steps[i]["Limits"][key] = v` -/
  | setLimit (i : Nat) (key : Str) (v : Val)
  /-- `steps[i]["Ends"]["EndEntry"][k]["Value"] = v` -/
  | setEnd (i : Nat) (k : Sel) (v : Val)
  /-- maccor.py 474-487, the loop count of loop 1 or loop 2 -/
  | loopCnt (i : Nat) (v₁ v₂ : Val)

/-- `steps[i]` (maccor.py:163-180, 290-528) -/
def stepAt (p : List Step) (i : Nat) : Except Err Step :=
  match p[i]? with
  | some s => .ok s
  | none => .error .indexError

/-- `step["Ends"]["EndEntry"]` or `step["Ends"]["EndEntry"][k]` (maccor.py:290-528) -/
def endAt (s : Step) : Sel → Except Err EndE
  | .one => match s.ends with
    | none => .error .typeError
    | some (.one e) => .ok e
    | some (.many _) => .error .typeError
  | .nth k => match s.ends with
    | none => .error .typeError
    | some (.one _) => .error .keyError
    | some (.many es) => match es[k]? with
      | some e => .ok e
      | none => .error .indexError

/-- assign the value of the end entry that `endAt` returned (maccor.py:290-528) -/
def putEnd (s : Step) (v : Val) : Sel → Step
  | .one => match s.ends with
    | some (.one e) => { s with ends := some (.one { e with value := v }) }
    | _ => s
  | .nth k => match s.ends with
    | some (.many es) => { s with ends := some (.many (es.modify k (fun e => { e with value := v }))) }
    | _ => s

/-- one statement (the statements of maccor.py:290-528, 799-939) -/
def exec (p : List Step) : Instr → Except Err (List Step)
  | .isType i t => do
    let s ← stepAt p i
    if s.stepType = t then .ok p else .error .assertionError
  | .isMode i t => do
    let s ← stepAt p i
    if s.stepMode = some t then .ok p else .error .assertionError
  | .endIs i k t => do
    let s ← stepAt p i
    let e ← endAt s k
    if e.endType = t then .ok p else .error .assertionError
  | .endNe i k v => do
    let s ← stepAt p i
    let e ← endAt s k
    if e.value = v then .error .assertionError else .ok p
  | .setValue i v => do
    let s ← stepAt p i
    .ok (p.set i { s with stepValue := v })
  | .setLimit i key v => do
    let s ← stepAt p i
    match s.limits with
    | none => .error .typeError
    | some l => .ok (p.set i { s with limits := some (l.set key v) })
  | .setEnd i k v => do
    let s ← stepAt p i
    let _ ← endAt s k
    .ok (p.set i (putEnd s v k))
  | .loopCnt i v₁ v₂ => do
    let s ← stepAt p i
    if s.stepType.take 4 = "Loop".toList then
      if s.stepType = "Loop 1".toList then do
        let e ← endAt s .one
        if e.endType = "Loop Cnt".toList then .ok (p.set i (putEnd s v₁ .one))
        else .error .assertionError
      else if s.stepType = "Loop 2".toList then do
        let e ← endAt s .one
        if e.endType = "Loop Cnt".toList then .ok (p.set i (putEnd s v₂ .one))
        else .error .assertionError
      else .ok p
    else .error .assertionError

/-- the statements in order; the first failing one stops the function
(the bodies of maccor.py:290-528, 799-939) -/
def run : List Instr → List Step → Except Err (List Step)
  | [], p => .ok p
  | c :: cs, p => do
    let p' ← exec p c
    run cs p'

/-- the regular cycle parameters used (maccor.py 243-262) -/
structure RegParam where
  chargeCC1 : Rat
  chargePercentLimit1 : Rat
  chargeCC2 : Rat
  chargeCutoffVoltage : Rat
  chargeCVTime : Rat
  chargeRestTime : Rat
  dischargeCC : Rat
  dischargeCutoffVoltage : Rat
  dischargeRestTime : Rat
  capacityNominal : Rat
  diagnosticStartCycle : Rat
  diagnosticInterval : Rat

/-- the diagnostic parameters used by the diagnostic cycles (maccor.py 1048-1300) -/
structure DiagParam where
  resetCurrent : Rat
  resetCutoffCurrent : Rat
  chargeCutoffVoltage : Rat
  dischargeCutoffVoltage : Rat
  cutoffCurrent : Rat
  hppcBaseline : Rat
  hppcRestTime : Rat
  hppcPulse1 : Rat
  hppcDuration1 : Rat
  hppcPulseRest : Rat
  hppcPulse2 : Rat
  hppcDuration2 : Rat
  hppcPulseCutoff : Rat
  hppcInterval : Rat
  rptCharge : Rat
  rptDischarge1 : Rat
  rptDischarge2 : Rat
  rptDischarge3 : Rat

/-- a number as the code stores it: `float(round(x, 3))` (maccor.py:290-528, 799-939) -/
def n3 (x : Rat) : Val := .num (roundTo 1000 x)

/-- `float(round(x, 4))` (maccor.py:290-528, 799-939) -/
def n4 (x : Rat) : Val := .num (roundTo 10000 x)

/-- `assert StepType == ty; assert StepMode == mode` (maccor.py:290-528, 799-939) -/
def expect (i : Nat) (ty mode : String) : List Instr := [.isType i ty.toList, .isMode i mode.toList]

/-- maccor.py 348-363 `insert_resistance_regcyclev2` -/
def insertResistance (i : Nat) (r : RegParam) : List Instr :=
  expect i "Charge" "Current" ++ [.setValue i (n3 (1 * r.capacityNominal))]

/-- `3600 * (percent / 100) / current`, maccor.py 388-394: dividing by a zero current ends in an
exception (`int(round(inf))`) -/
def window (percent current : Rat) : Except Err Int :=
  if current = 0 then .error .zeroDivision
  else .ok (nearest (3600 * (percent / 100) / current))

/-- maccor.py 401-433, the part common to `insert_charge_regcyclev2` and
`insert_charge_regcyclev3` (865-896) -/
def chargeTail (i : Nat) (r : RegParam) : List Instr :=
  expect (i + 1) "Charge" "Current" ++
  [.setValue (i + 1) (n3 (r.chargeCC2 * r.capacityNominal)),
   .endIs (i + 1) (.nth 0) "Voltage".toList,
   .setEnd (i + 1) (.nth 0) (n3 r.chargeCutoffVoltage)] ++
  expect (i + 2) "Charge" "Voltage" ++
  [.setValue (i + 2) (.num r.chargeCutoffVoltage),
   .endIs (i + 2) (.nth 0) "StepTime".toList,
   .setEnd (i + 2) (.nth 0) (.text (hms (nearest (60 * r.chargeCVTime)))),
   .isType (i + 3) "Rest".toList,
   .endIs (i + 3) (.nth 0) "StepTime".toList,
   .setEnd (i + 3) (.nth 0) (.text (hms (nearest (60 * r.chargeRestTime))))]

/-- maccor.py 365-435 `insert_charge_regcyclev2` -/
def insertChargeV2 (i : Nat) (r : RegParam) : Except Err (List Instr) := do
  let t ← window r.chargePercentLimit1 r.chargeCC1
  .ok (expect i "Charge" "Current" ++
    [.setValue i (n3 (r.chargeCC1 * r.capacityNominal)),
     .endIs i (.nth 0) "StepTime".toList,
     .setEnd i (.nth 0) (.text (hms t))] ++ chargeTail i r)

/-- maccor.py 823-898 `insert_charge_regcyclev3` -/
def insertChargeV3 (i : Nat) (r : RegParam) : Except Err (List Instr) := do
  let t ← window r.chargePercentLimit1 r.chargeCC1
  .ok (expect i "Charge" "Current" ++
    [.setValue i (n3 (r.chargeCC1 * r.capacityNominal)),
     .endIs i (.nth 0) "StepTime".toList,
     .setEnd i (.nth 0) (.text (hms t)),
     .endNe i (.nth 1) (.num (44 / 10)),
     .setEnd i (.nth 1) (n3 r.chargeCutoffVoltage)] ++ chargeTail i r)

/-- maccor.py 437-489 `insert_discharge_regcyclev2` -/
def insertDischarge (i : Nat) (r : RegParam) : List Instr :=
  expect i "Dischrge" "Current" ++
  [.setValue i (n3 (r.dischargeCC * r.capacityNominal)),
   .endIs i (.nth 0) "Voltage".toList,
   .setEnd i (.nth 0) (n3 r.dischargeCutoffVoltage),
   .isType (i + 1) "Rest".toList,
   .endIs (i + 1) (.nth 0) "StepTime".toList,
   .setEnd (i + 1) (.nth 0) (.text (hms (nearest (60 * r.dischargeRestTime)))),
   .loopCnt (i + 3) (.num r.diagnosticStartCycle) (.num r.diagnosticInterval)]

/-- maccor.py 491-529 `insert_storage_regcyclev2` (`k = .one`) and 900-938
`insert_storage_regcyclev3` (`k = .nth 0`) -/
def insertStorage (k : Sel) (i : Nat) (r : RegParam) : List Instr :=
  expect i "Dischrge" "Current" ++
  [.setValue i (n3 (1 / 2 * r.capacityNominal)),
   .setLimit i "Voltage".toList (n3 r.dischargeCutoffVoltage),
   .endIs i k "Current".toList,
   .setEnd i k (n3 (5 / 100 * r.capacityNominal))] ++
  expect (i + 1) "Charge" "Current" ++
  [.setValue (i + 1) (n3 (1 / 2 * r.capacityNominal)),
   .endIs (i + 1) (.nth 0) "StepTime".toList,
   .setEnd (i + 1) (.nth 0) (.text (hms (nearest (60 * 12))))]

/-- maccor.py 799-821 `insert_initialrest_regcyclev3` -/
def insertInitialRest (i : Nat) (index : Int) : List Instr :=
  [.isType i "Rest".toList,
   .endIs i (.nth 0) "StepTime".toList,
   .setEnd i (.nth 0) (.text (hms (nearest (3 * 3600 + 720 * ((index % 96 : Int) : Rat)))))]

/-- maccor.py 1032-1067 `insert_reset_cyclev2` -/
def insertReset (i : Nat) (cap : Rat) (d : DiagParam) : List Instr :=
  expect i "Charge" "Current" ++
  [.setValue i (n4 (cap * d.resetCurrent)),
   .setLimit i "Voltage".toList (n3 d.chargeCutoffVoltage),
   .endIs i (.nth 0) "Current".toList,
   .setEnd i (.nth 0) (n4 (cap * d.resetCutoffCurrent))] ++
  expect (i + 1) "Dischrge" "Current" ++
  [.setValue (i + 1) (n4 (cap * d.resetCurrent)),
   .endIs (i + 1) (.nth 0) "Voltage".toList,
   .setEnd (i + 1) (.nth 0) (n3 d.dischargeCutoffVoltage)]

/-- `time.gmtime(float(t))` of a possibly fractional number of seconds drops the fraction
(maccor.py 1117-1119, 1140-1142) -/
def hmsOf (t : Rat) : Str := hms t.floor

/-- maccor.py 1069-1193 `insert_hppc_cyclev2` -/
def insertHppc (i : Nat) (cap : Rat) (d : DiagParam) : Except Err (List Instr) := do
  if d.hppcBaseline = 0 then .error .zeroDivision else
  .ok (expect i "Charge" "Current" ++
    [.setValue i (n3 (cap * d.hppcBaseline)),
     .setLimit i "Voltage".toList (n3 d.chargeCutoffVoltage),
     .endIs i (.nth 0) "Current".toList,
     .setEnd i (.nth 0) (n3 (cap * d.cutoffCurrent)),
     .isType (i + 2) "Rest".toList,
     .endIs (i + 2) (.nth 0) "StepTime".toList,
     .setEnd (i + 2) (.nth 0) (.text (hms (nearest (60 * d.hppcRestTime))))] ++
    expect (i + 3) "Dischrge" "Current" ++
    [.setValue (i + 3) (n3 (cap * d.hppcPulse1)),
     .endIs (i + 3) (.nth 0) "StepTime".toList,
     .setEnd (i + 3) (.nth 0) (.text (hmsOf d.hppcDuration1)),
     .endIs (i + 3) (.nth 1) "Voltage".toList,
     .setEnd (i + 3) (.nth 1) (n3 d.dischargeCutoffVoltage),
     .isType (i + 4) "Rest".toList,
     .endIs (i + 4) (.nth 0) "StepTime".toList,
     .setEnd (i + 4) (.nth 0) (.text (hms (nearest d.hppcPulseRest)))] ++
    expect (i + 5) "Charge" "Current" ++
    [.setValue (i + 5) (n3 (cap * d.hppcPulse2)),
     .endIs (i + 5) (.nth 0) "StepTime".toList,
     .setEnd (i + 5) (.nth 0) (.text (hmsOf d.hppcDuration2)),
     .endIs (i + 5) (.nth 1) "Voltage".toList,
     .setEnd (i + 5) (.nth 1) (n3 d.hppcPulseCutoff)] ++
    expect (i + 6) "Dischrge" "Current" ++
    [.setValue (i + 6) (n3 (cap * d.hppcBaseline)),
     .endIs (i + 6) (.nth 0) "StepTime".toList,
     .setEnd (i + 6) (.nth 0)
       (.text (hms (nearest (3600 * (d.hppcInterval / 100) / d.hppcBaseline - 1)))),
     .endIs (i + 6) (.nth 1) "Voltage".toList,
     .setEnd (i + 6) (.nth 1) (n3 d.dischargeCutoffVoltage)] ++
    expect (i + 8) "Dischrge" "Voltage" ++
    [.setValue (i + 8) (n3 d.dischargeCutoffVoltage),
     .setLimit (i + 8) "Current".toList (n3 (cap * d.hppcBaseline)),
     .endIs (i + 8) (.nth 0) "Current".toList,
     .setEnd (i + 8) (.nth 0) (n3 (cap * d.cutoffCurrent))])

/-- one charge/discharge pair of maccor.py 1195-1300 -/
def rptPair (i : Nat) (cap rate : Rat) (d : DiagParam) : List Instr :=
  expect i "Charge" "Current" ++
  [.setValue i (n3 (cap * d.rptCharge)),
   .setLimit i "Voltage".toList (n3 d.chargeCutoffVoltage),
   .endIs i (.nth 0) "Current".toList,
   .setEnd i (.nth 0) (n3 (cap * d.cutoffCurrent))] ++
  expect (i + 1) "Dischrge" "Current" ++
  [.setValue (i + 1) (n3 (cap * rate)),
   .endIs (i + 1) (.nth 0) "Voltage".toList,
   .setEnd (i + 1) (.nth 0) (n3 d.dischargeCutoffVoltage)]

/-- maccor.py 1195-1300 `insert_rpt_cyclev2` -/
def insertRpt (i : Nat) (cap : Rat) (d : DiagParam) : List Instr :=
  rptPair i cap d.rptDischarge1 d ++ rptPair (i + 3) cap d.rptDischarge2 d ++
  rptPair (i + 6) cap d.rptDischarge3 d

/-- maccor.py 941-976 `add_procedure_diagcyclev2` -/
def diagCycleV2 (cap : Rat) (d : DiagParam) : Except Err (List Instr) := do
  let h₁ ← insertHppc 8 cap d
  let h₂ ← insertHppc 40 cap d
  .ok (insertReset 4 cap d ++ h₁ ++ insertRpt 18 cap d ++
    insertReset 37 cap d ++ h₂ ++ insertRpt 50 cap d)

/-- maccor.py 979-1030 `generate_procedure_diagcyclev3` -/
def diagCycleV3 (cap : Rat) (d : DiagParam) : Except Err (List Instr) := do
  let a ← diagCycleV2 cap d
  let h₃ ← insertHppc 74 cap d
  .ok (a ++ insertReset 70 cap d ++ h₃ ++ insertRpt 84 cap d)

/-- maccor.py 239-297 `from_regcyclev2`, after the template is read -/
def regcycleV2 (r : RegParam) (p : List Step) : Except Err (List Step) := do
  if r.chargeCutoffVoltage > r.dischargeCutoffVoltage then do
    let c₁ ← insertChargeV2 28 r
    let c₂ ← insertChargeV2 60 r
    run (insertResistance 1 r ++ c₁ ++ insertDischarge 32 r ++ c₂ ++ insertDischarge 64 r ++
      insertStorage .one 69 r) p
  else .error .assertionError

/-- maccor.py 532-607 `generate_procedure_regcyclev3`, after the template is read; the closing
assertions (589-605) compare two values written before -/
def regcycleV3 (index : Int) (r : RegParam) (p : List Step) : Except Err (List Step) := do
  if r.chargeCutoffVoltage > r.dischargeCutoffVoltage then do
    let c₁ ← insertChargeV3 28 r
    let c₂ ← insertChargeV3 60 r
    run (insertInitialRest 0 index ++ insertResistance 1 r ++ c₁ ++ insertDischarge 32 r ++
      c₂ ++ insertDischarge 64 r ++ insertStorage (.nth 0) 93 r) p
  else .error .assertionError

end Beep.MaccorProcedure
