import Verif.Model.Pandas
/-
Model of `MaccorDatapath.quantity_sum`, beep/structure/maccor.py:175-243.
-/
namespace Beep.Maccor
open Beep.Pandas

/-- one row of Maccor data as seen by `quantity_sum(data, quantity, state_type)`:
`quantity` is `_capacity` / `_energy`, `inState` says whether `_state` is the requested state
code, `wfChgCap` is `_wf_chg_cap`, `wf` is the waveform column selected by
(state_type, quantity), `endStatus` says whether `_ending_status` lies between the end-step
codes.  Step indices are present (simplification) (structure/maccor.py:175-243). -/
structure Row where
  quantity : Rat
  inState : Bool
  wfChgCap : Option Rat
  wf : Option Rat
  endStatus : Bool
  step : Int
  cycle : Int
  deriving DecidableEq, Repr

/-- maccor.py:191, 196-206: the per-step quantity of a row -/
def value (waveform : Bool) (r : Row) : Rat :=
  let base := if r.inState then r.quantity else 0
  if waveform then r.wf.getD base else base

/-- maccor.py:196: a waveform step is present -/
def hasWaveform (rows : List Row) : Bool := rows.any (fun r => r.wfChgCap.isSome)

/-- maccor.py:208-215: row `i` carries an ending status and the next row has another step
index (the last row is never an end) -/
def isEnd (rows : List Row) (i : Nat) : Bool :=
  match rows[i]?, rows[i + 1]? with
  | some a, some b => a.endStatus && decide (a.step ≠ b.step)
  | _, _ => false

/-- maccor.py:215 -/
def endInds (rows : List Row) : List Nat := (List.range rows.length).filter (isEnd rows)

/-- `data.loc[i, "cycle_index"]` (structure/maccor.py:175-243) -/
def cycleAt (rows : List Row) (i : Nat) : Option Int := (rows[i]?).map Row.cycle

/-- `quantity_agg[b:e] += c` (structure/maccor.py:175-243) -/
def addSlice (l : List Rat) (b e : Nat) (c : Rat) : List Rat :=
  l.mapIdx (fun i v => if b ≤ i ∧ i < e then v + c else v)

/-- the loop of maccor.py:223-240; the arguments are the remaining end indices,
`quantity_agg`, `cycle_sum` and `begin_step_ind` -/
def sumLoop (rows : List Row) : List Nat → List Rat → Rat → Nat → List Rat × Rat × Nat
  | [], agg, cs, b => (agg, cs, b)
  | e :: es, agg, cs, b =>
    let cs' := if cycleAt rows (b - 1) ≠ cycleAt rows b then 0 else cs
    let agg' := addSlice agg b (e + 1) cs'
    sumLoop rows es agg' ((agg'[e]?).getD 0) (e + 1)

/-- `quantity_sum`, maccor.py:175-243 -/
def quantitySum (rows : List Row) : List Rat :=
  let q := rows.map (value (hasWaveform rows))
  match (endInds rows).getLast? with
  | none => q
  | some lastEnd =>
    let r := sumLoop rows (endInds rows) q 0 1
    if lastEnd < q.length - 1 then addSlice r.1 r.2.2 q.length r.2.1 else r.1

end Beep.Maccor
