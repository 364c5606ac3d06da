import Verif.Model.MaccorProcedure
import Verif.Model.Batch
import Verif.Model.Waveform
/-
Maccor procedures that play a waveform file: `insert_maccor_waveform`, `generate_procedure_drivingv1`
and `generate_procedure_chargingv1` of beep/protocol/maccor.py.

The template is already read.  The waveform file of a charging procedure, which the code reads again
to check its voltage limit, is the list of its lines (see Model/Waveform).
-/
namespace Beep.WaveProcedure
open Beep Text MaccorProcedure

/-- `waveform_filename.split(".")[-1]`, maccor.py:333 -/
def lastPart (path : Str) : Str := (splitC '.' path).getLastD []

/-- `local_name`, maccor.py:334-335: what is before the first dot of the path, without directories -/
def localName (path : Str) : Str := Batch.basename ((splitC '.' path).headD [])

/-- the step after the assignments of maccor.py:305-330 and 338 -/
def waveStep (path : Str) (s : Step) : Step :=
  { stepType := "FastWave".toList
    stepMode := some []
    stepValue := .text (localName path)
    limits := s.limits
    ends := none
    reports := none
    other := ((((s.other.set "Range".toList (.text [])).set "Option1".toList (.text [])).set
      "Option2".toList (.text [])).set "Option3".toList (.text [])) }

/-- maccor.py:290-340 `insert_maccor_waveform`.  A step that does not exist raises here (simplification:
pydash would append steps; the templates have all the steps). -/
def insertWaveform (i : Nat) (path : Str) (p : List Step) : Except Err (List Step) :=
  match p[i]? with
  | none => .error .indexError
  | some s =>
    if (lastPart path).map Char.toLower = "mwf".toList then
      if (localName path).length < 25 then .ok (p.set i (waveStep path s))
      else .error .assertionError
    else .error .assertionError

/-- the closing assertions of maccor.py:676-695: both charging currents end at the same voltage -/
def sameUpper (i : Nat) (p : List Step) : Except Err Unit := do
  let s ← stepAt p i
  let e ← endAt s (.nth 1)
  let s' ← stepAt p (i + 1)
  let e' ← endAt s' (.nth 0)
  if e.value = e'.value then .ok () else .error .assertionError

/-- maccor.py:610-697 `generate_procedure_drivingv1`, after the template is read -/
def driving (index : Int) (r : RegParam) (path : Str) (p : List Step) : Except Err (List Step) :=
  if r.chargeCutoffVoltage > r.dischargeCutoffVoltage then
    if r.chargeCC1 ≤ r.chargeCC2 then do
      let c₁ ← insertChargeV3 28 r
      let c₂ ← insertChargeV3 60 r
      let p₁ ← run (insertInitialRest 0 index ++ insertResistance 1 r ++ c₁) p
      let p₂ ← insertWaveform 32 path p₁
      let p₃ ← run c₂ p₂
      let p₄ ← insertWaveform 64 path p₃
      let p₅ ← run (insertStorage (.nth 0) 93 r) p₄
      let _ ← sameUpper 28 p₅
      let _ ← sameUpper 60 p₅
      .ok p₅
    else .error .assertionError
  else .error .assertionError

/-- the parameters of `generate_procedure_chargingv1`, maccor.py:709-731; `reg` has the columns that the
function overwrites among its fields -/
structure Rapid where
  reg : RegParam
  currentParam4 : Rat
  fastSocLimit : Rat

/-- the assignments to `reg_param`, maccor.py:751-753 -/
def prepare (q : Rapid) : Rapid :=
  { q with reg := { q.reg with chargeCC1 := 1, chargeCC2 := q.currentParam4,
                               chargePercentLimit1 := q.fastSocLimit } }

/-- `df_mwf.loc[:, 4].max()`, maccor.py:775-780; an empty file cannot be read -/
def waveLimit (file : List Waveform.Line) : Except Err Rat :=
  match Pandas.maxN (file.map (fun l => some l.limitValue)) with
  | some x => .ok x
  | none => .error .valueError

/-- the closing assertions of maccor.py:782-795: the waveform is held below the voltage at which the
second charging current ends -/
def belowUpper (limit : Rat) (i : Nat) (p : List Step) : Except Err Unit := do
  let s ← stepAt p (i + 1)
  let e ← endAt s (.nth 0)
  match e.value with
  | .num v => if limit < v then .ok () else .error .assertionError
  | _ => .error .typeError

/-- maccor.py:755-797, with the parameters of 751-753 -/
def chargingBody (file : List Waveform.Line) (r : RegParam) (path : Str) (p : List Step) :
    Except Err (List Step) := do
  let c₁ ← insertChargeV3 28 r
  let c₂ ← insertChargeV3 60 r
  let p₁ ← run c₁ p
  let p₂ ← insertWaveform 28 path p₁
  let p₃ ← run (insertDischarge 32 r ++ c₂) p₂
  let p₄ ← insertWaveform 60 path p₃
  let p₅ ← run (insertDischarge 64 r ++ insertStorage (.nth 0) 93 r) p₄
  let limit ← waveLimit file
  let _ ← belowUpper limit 28 p₅
  let _ ← belowUpper limit 60 p₅
  .ok p₅

/-- maccor.py:700-797 `generate_procedure_chargingv1`, after the template is read: the result, and the
parameters of the caller afterwards -/
def charging (file : List Waveform.Line) (index : Int) (q : Rapid) (path : Str) (p : List Step) :
    Except Err (List Step) × Rapid :=
  if q.reg.chargeCutoffVoltage > q.reg.dischargeCutoffVoltage then
    match run (insertInitialRest 0 index ++ insertResistance 1 q.reg) p with
    | .error e => (.error e, q)
    | .ok p₁ => (chargingBody file (prepare q).reg path p₁, prepare q)
  else (.error .assertionError, q)

end Beep.WaveProcedure
