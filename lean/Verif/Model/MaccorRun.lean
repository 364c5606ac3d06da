import Verif.Model.MaccorQuantity
import Verif.Model.Summary
/-
Model of the accumulated columns that `MaccorDatapath.from_file` adds to the data,
beep/structure/maccor.py:71-155.
-/
namespace Beep.MaccorRun
open Beep

/-- one record of a Maccor file after renaming (maccor.py:84-91): `_capacity`, `_energy`, `_state`, the four waveform
columns (NaN is `none`), `_ending_status`, `step_index`, `cycle_index`, the time stamp in seconds and `voltage`.  The
other columns are not used for the accumulated columns or the summary modelled here. -/
structure Rec where
  capacity : Rat
  energy : Rat
  state : Char
  wfChgCap : Option Rat := none
  wfDisCap : Option Rat := none
  wfChgE : Option Rat := none
  wfDisE : Option Rat := none
  es : Int
  step : Int
  cycle : Int
  stamp : Rat := 0
  voltage : Option Rat := none
  deriving DecidableEq, Repr

/-- the quantities that are accumulated, maccor.py:93-102 -/
inductive Kind where
  | chgCap | dchgCap | chgEn | dchgEn
  deriving DecidableEq, Repr

/-- conversion_schemas/maccor_conversion.yaml:2-3 with maccor.py:190 -/
def stateCode : Kind → Char
  | .chgCap | .chgEn => 'C'
  | .dchgCap | .dchgEn => 'D'

/-- `data['_' + quantity]`, maccor.py:191 -/
def quantityOf : Kind → Rec → Rat
  | .chgCap, r | .dchgCap, r => r.capacity
  | .chgEn, r | .dchgEn, r => r.energy

/-- the waveform column used, maccor.py:196-206 -/
def waveformOf : Kind → Rec → Option Rat
  | .dchgCap, r => r.wfDisCap
  | .chgCap, r => r.wfChgCap
  | .dchgEn, r => r.wfDisE
  | .chgEn, r => r.wfChgE

/-- what `quantity_sum` sees of a record, maccor.py:190-215, maccor_conversion.yaml:4-5 -/
def view (k : Kind) (r : Rec) : Maccor.Row :=
  { quantity := quantityOf k r, inState := decide (r.state = stateCode k), wfChgCap := r.wfChgCap,
    wf := waveformOf k r, endStatus := decide (128 ≤ r.es ∧ r.es ≤ 255), step := r.step, cycle := r.cycle }

/-- `cls.quantity_sum(data, quantity, state_type)`, maccor.py:93-102 -/
def column (k : Kind) (file : List Rec) : List Rat := Maccor.quantitySum (file.map (view k))

/-- the data of the datapath as the summary uses them, maccor.py:93-102 -/
def rawOf (file : List Rec) : List Summary.Raw :=
  file.mapIdx (fun i r =>
    { cycle := r.cycle, chgCap := (column .chgCap file)[i]?, dchgCap := (column .dchgCap file)[i]?,
      chgEn := (column .chgEn file)[i]?, dchgEn := (column .dchgEn file)[i]?, stamp := r.stamp, voltage := r.voltage })

end Beep.MaccorRun
