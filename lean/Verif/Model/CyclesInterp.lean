import Verif.Model.Interp
/-
Model of the choice of the interpolation axes of the aging cycles,
beep/structure/base.py.
-/
namespace Beep.CyclesInterp
open Beep.Pandas Beep.Steps Beep.Interp

/-- a raw row together with "the column `_wf_chg_cap` or `_wf_dis_cap` holds a value",
which is all that `step_is_waveform` reads of these columns (base.py:1383-1415) -/
abbrev WfRow := Row × Bool

/-- `step_is_waveform`, base.py:1383-1413, with the filters `step_is_chg` / `step_is_dchg`
(1375-1380, indeterminate steps count as charge). `hasWf`: the table has `_wf_` columns; the
other branches return `False`. -/
def stepIsWaveform (hasWf chg : Bool) (rows : List WfRow) : Bool :=
  if hasWf then stepIsChgState chg true (rows.map Prod.fst) && rows.any Prod.snd else false

/-- `groupby(["cycle_index", "step_index"]).apply(...).any()`, base.py:714-724; rows with a
NaN step index are in no group -/
def anyWaveform (hasWf chg : Bool) (rows : List WfRow) : Bool :=
  rows.any (fun r => match r.1.step with
    | none => false
    | some s => stepIsWaveform hasWf chg
        (rows.filter (fun q => decide (q.1.cycle = r.1.cycle) && decide (q.1.step = some s))))

/-- `interpolate_cycles`, base.py:685-749, with the waveform detection -/
def structuredCycles (raw : List WfRow) (hasWf indet : Bool) (diag : Option (List Int))
    (vRange : Option (Rat × Rat)) (n : Nat) (chargeAxis dischargeAxis : String)
    (exclude : List Int) : Except Err (List OutRow) :=
  let reg := match diag with
    | some ix => raw.filter (fun r => !ix.contains r.1.cycle)
    | none => raw
  interpolateCycles (raw.map Prod.fst) indet diag vRange n chargeAxis dischargeAxis exclude
    (anyWaveform hasWf false reg) (anyWaveform hasWf true reg)

end Beep.CyclesInterp
