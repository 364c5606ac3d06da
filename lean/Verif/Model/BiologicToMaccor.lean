import Verif.Model.Units
import Verif.Model.MaccorToBiologic
/-
Model of beep/protocol/biologic_mb_to_maccor.py: from the sequences of a Modulo Bat technique
to the steps of a Maccor procedure.  Parsing of the .mps text and writing of the XML are not
part of this model.  The sequence number `Ns` of a sequence is its position, as in every .mps
file; `ctrl_seq` and `lim_seq` are natural numbers.
-/
namespace Beep.BtM
open Beep Beep.Units
open Beep.MtB (mapE)

/-- a limit of a sequence: `lim1_type`, `lim1_comp`, `lim1_value`, `lim1_value_unit`,
`lim1_action`, `lim1_seq` (biologic_mb_to_maccor.py:287-516) -/
structure BLim where
  type : String
  comp : String
  value : Rat
  unit : String
  action : String
  goto : Nat
  deriving DecidableEq, Repr

/-- a record rule: `rec1_type`, `rec1_value`, `rec1_value_unit`
(biologic_mb_to_maccor.py:287-516) -/
structure BRec where
  type : String
  value : Rat
  unit : String
  deriving DecidableEq, Repr

/-- a sequence; `lim_nb` and `rec_nb` are the lengths of the lists
(biologic_mb_to_maccor.py:114-132, 287-516) -/
structure BSeq where
  ctrlType : String
  value : Rat
  unit : String
  vs : String
  charge : String
  lims : List BLim
  recs : List BRec
  repeats : Int
  loopTo : Nat
  deriving DecidableEq, Repr

/-- the value of an end or report entry: a number, a time, or the empty text
(biologic_mb_to_maccor.py:287-516) -/
inductive MVal where
  | num (x : Rat)
  | time (t : Time)
  | empty
  deriving DecidableEq, Repr

/-- an `EndEntry` of the produced step (biologic_mb_to_maccor.py:241-516); `stepValue` is the key "StepValue", which only the
entries of loop steps have -/
structure MEnd where
  endType : String
  oper : String
  value : MVal
  step : Nat
  stepValue : Option Int := none
  deriving DecidableEq, Repr

/-- a produced `TestStep`; the text fields keep their padding (biologic_mb_to_maccor.py:287-516) -/
structure MStep where
  stepType : String
  stepMode : String
  value : Option Rat
  ends : List MEnd
  reports : List (String × MVal)
  deriving DecidableEq, Repr

/-- a step without ends, reports and value, as `_create_adv_cycle_step`, `_create_do_step` and the
end step, biologic_mb_to_maccor.py:266-284, 749-752 -/
def plain (t : String) : MStep :=
  { stepType := t, stepMode := "        ", value := none, ends := [], reports := [] }

/-- `_create_loop_step`, 241-264.  The loop count is stored under "StepValue" of the end entry, the
entry's "Value" stays empty.  The assertion demands a step number of three digits. -/
def loopStep (stepNum : Nat → Option Nat) (q : BSeq) : Except Err MStep :=
  match stepNum q.loopTo with
  | none => .error .keyError
  | some n =>
    if n - 1 > 999 then .error .assertionError
    else .ok { plain " Loop 1 " with
      ends := [{ endType := "Loop Cnt", oper := " = ", value := .empty, step := n - 1, stepValue := some q.repeats }] }

/-- `StepType` of a controlled sequence, 320-322 -/
def chargeType (q : BSeq) : String := if q.charge = " Charge " then "Charge " else "Dischrge "

/-- type, mode and value of a step, 324-361 -/
def control (q : BSeq) : Except Err (String × String × Option Rat) :=
  if q.ctrlType = "CC" then do
    let v ← backAmps q.value q.unit
    return (chargeType q, "Current ", some v)
  else if q.ctrlType = "CV" ∧ q.vs = "Ref" then do
    let v ← backVolts q.value q.unit
    return (chargeType q, "Voltage ", some v)
  else if q.ctrlType = "CV" then .error .valueError
  else if q.ctrlType = "CR" then do
    let v ← backOhms q.value q.unit
    return (chargeType q, "Resistance ", some v)
  else if q.ctrlType = "CP" then do
    let v ← backWatts q.value q.unit
    return (chargeType q, "Power ", some v)
  else if q.ctrlType = "Rest" then .ok ("  Rest  ", "        ", none)
  else .error .valueError

/-- `Oper` of an end entry, 383-400 -/
def operOf (l : BLim) : Except Err String :=
  if l.comp = "<" then .ok "<= "
  else if l.comp = ">" ∧ l.type = "Time" then .ok " = "
  else if l.comp = ">" then .ok ">= "
  else .error .valueError

/-- `EndType` and `Value` of an end entry, 402-421 -/
def endValue (l : BLim) : Except Err (String × MVal) :=
  if l.type = "Ece" ∨ l.type = "Ecell" then do
    let v ← backVolts l.value l.unit
    return ("Voltage ", .num v)
  else if l.type = "Time" then do
    let v ← backTime l.value l.unit
    return ("StepTime", .time v)
  else if l.type = "I" then do
    let v ← backAmps l.value l.unit
    return ("Current ", .num v)
  else .error .valueError

/-- `Step` of an end entry, 423-451.  `loopSteps` is the third argument of `_create_step`; the
caller passes step numbers, the parameter is named after sequence numbers. -/
def endTarget (stepNum : Nat → Option Nat) (loopSteps : List Nat) (endStep i step : Nat) (l : BLim) :
    Except Err Nat :=
  if l.action = "End" then .ok endStep
  else if l.action = "Next sequence" then .ok (step + 1)
  else if l.action = "Goto sequence" then
    match stepNum l.goto with
    | none => .error .valueError
    | some n => if i < l.goto ∧ l.goto ∈ loopSteps then .ok (n - 1) else .ok n
  else .error .valueError

/-- one limit, body of the loop 372-453 -/
def convertLim (stepNum : Nat → Option Nat) (loopSteps : List Nat) (endStep i step : Nat) (l : BLim) :
    Except Err MEnd := do
  let o ← operOf l
  let v ← endValue l
  let t ← endTarget stepNum loopSteps endStep i step l
  return { endType := v.1, oper := o, value := v.2, step := t }

/-- one record rule, body of the loop 470-506 -/
def convertRec (r : BRec) : Except Err (String × MVal) :=
  if r.type = "Time" then do
    let v ← backTime r.value r.unit
    return ("StepTime", .time v)
  else if r.type = "Ece" ∨ r.type = "Ecell" then do
    let v ← backVolts r.value r.unit
    return ("Voltage ", .num v)
  else if r.type = "I" then do
    let v ← backAmps r.value r.unit
    return ("Current ", .num v)
  else if r.type = "Power" then do
    let v ← backWatts r.value r.unit
    return ("Power ", .num v)
  else .error .valueError

/-- `_create_step`, 286-516 -/
def createStep (stepNum : Nat → Option Nat) (loopSteps : List Nat) (endStep i : Nat) (q : BSeq) :
    Except Err MStep :=
  match stepNum i with
  | none => .error .keyError
  | some step =>
    if q.charge ≠ "Charge" ∧ q.charge ≠ "Discharge" then .error .valueError
    else do
      let c ← control q
      if q.lims.length > 3 then .error .valueError
      else do
        let ends ← mapE (convertLim stepNum loopSteps endStep i step) q.lims
        if q.recs.length > 3 then .error .valueError
        else do
          let reports ← mapE convertRec q.recs
          return { stepType := c.1, stepMode := c.2.1, value := c.2.2, ends := ends, reports := reports }

/-! ### `_create_steps` -/

/-- state of the first pass, 530-533: `containing_loop_range_by_seq_num`,
`seq_num_is_active_loop_start`, and (`curr_loop_start`, `curr_loop_end`), nothing for infinity -/
structure RevState where
  ranges : List (Nat × (Nat × Nat))
  active : List Nat
  cur : Option (Nat × Nat)
  deriving Repr

/-- a loop that is executed, 539-542 -/
def isActive (q : BSeq) : Bool := q.ctrlType == "Loop" && q.repeats != 0

/-- `loop_to >= curr_loop_start`, 545 (biologic_mb_to_maccor.py:545) -/
def overlaps (cur : Option (Nat × Nat)) (q : BSeq) : Bool :=
  match cur with
  | none => false
  | some c => decide (c.1 ≤ q.loopTo)

/-- one iteration of the first pass, 537-562 -/
def revStep (st : RevState) (i : Nat) (q : BSeq) : Except Err RevState :=
  if isActive q && overlaps st.cur q then .error .valueError
  else
    let cur := if isActive q then some (q.loopTo, i) else st.cur
    .ok { ranges := match cur with
            | none => st.ranges
            | some c => if c.1 ≤ i then (i, c) :: st.ranges else st.ranges,
          active := if isActive q then q.loopTo :: st.active else st.active,
          cur := cur }

/-- the first pass, 535-562: from the last sequence to the first.  The recursion visits the
rest of the list before the head. -/
def revPass : Nat → List BSeq → Except Err RevState
  | _, [] => .ok { ranges := [], active := [], cur := none }
  | i, q :: qs => do
    let st ← revPass (i + 1) qs
    revStep st i q

/-- look up in `containing_loop_range_by_seq_num` (biologic_mb_to_maccor.py:519-757) -/
def rangeOf (ranges : List (Nat × (Nat × Nat))) (i : Nat) : Option (Nat × Nat) :=
  (ranges.find? (fun p => p.1 == i)).map Prod.snd

/-- the assertions 564-566 -/
def startsOk (st : RevState) : Bool :=
  st.active.all (fun s => match rangeOf st.ranges s with
    | none => false
    | some r => r.1 == s)

/-- state of the second pass, 575-581: `curr_step`, `step_num_is_active_loop_start`,
`seq_num_is_blank_loop`, `step_num_by_seq_num` -/
structure NumState where
  cur : Nat
  loopSteps : List Nat
  blanks : List Nat
  nums : List (Nat × Nat)
  deriving Repr

/-- one iteration of the second pass, 582-629.  The branch for advancing loops at 613 repeats
the condition of 592 and is not reachable. -/
def numStep (seqs : List BSeq) (active : List Nat) (st : NumState) (i : Nat) (q : BSeq) : Except Err NumState :=
  if q.ctrlType = "Loop" ∧ q.repeats = 0 then .ok { st with blanks := i :: st.blanks }
  else if q.ctrlType = "Loop" ∧ q.loopTo + 1 = i ∧ q.loopTo ∈ st.blanks then
    .ok { st with nums := (i, st.cur) :: st.nums, cur := st.cur + 1 }
  else
    let cur := if i ∈ active then st.cur + 1 else st.cur
    let loopSteps := if i ∈ active then cur :: st.loopSteps else st.loopSteps
    if q.ctrlType = "Loop" then
      match seqs[q.loopTo]? with
      | none => .error .indexError
      | some t =>
        if t.ctrlType = "Loop" then .error .valueError
        else .ok { st with loopSteps := loopSteps, nums := (i, cur) :: st.nums, cur := cur + 2 }
    else .ok { st with loopSteps := loopSteps, nums := (i, cur) :: st.nums, cur := cur + 1 }

/-- the second pass from position `i` (biologic_mb_to_maccor.py:519-757) -/
def numPass (seqs : List BSeq) (active : List Nat) : NumState → Nat → List BSeq → Except Err NumState
  | st, _, [] => .ok st
  | st, i, q :: qs => do
    let st' ← numStep seqs active st i q
    numPass seqs active st' (i + 1) qs

/-- `step_num_by_seq_num` (biologic_mb_to_maccor.py:519-757) -/
def numOf (nums : List (Nat × Nat)) (i : Nat) : Option Nat :=
  (nums.find? (fun p => p.1 == i)).map Prod.snd

/-- checks for one limit, 655-712; `lastEnd` is `last_loop_end`, nothing for -1 -/
def gotoOk (ranges : List (Nat × (Nat × Nat))) (lastEnd : Option Nat) (i : Nat) (l : BLim) : Bool :=
  !(match lastEnd with | none => false | some e => decide (l.goto < e)) &&
  (match rangeOf ranges i, rangeOf ranges l.goto with
   | some a, some b => decide (a = b)
   | none, some b => decide (l.goto = b.1)
   | _, none => true)

/-- the third pass, 640-712 -/
def gotoPass (ranges : List (Nat × (Nat × Nat))) (blanks : List Nat) : Option Nat → Nat → List BSeq → Bool
  | _, _, [] => true
  | lastEnd, i, q :: qs =>
    if i ∈ blanks then gotoPass ranges blanks lastEnd (i + 1) qs
    else if q.ctrlType = "Loop" then gotoPass ranges blanks (some i) (i + 1) qs
    else q.lims.all (gotoOk ranges lastEnd i) && gotoPass ranges blanks lastEnd (i + 1) qs

/-- the steps of one sequence in the last pass, 716-747 -/
def emit (active : List Nat) (st : NumState) (i : Nat) (q : BSeq) : Except Err (List MStep) :=
  if i ∈ st.blanks then .ok []
  else
    let pre := if i ∈ active then [plain "  Do 1  "] else []
    if q.ctrlType = "Loop" ∧ q.loopTo + 1 = i ∧ q.loopTo ∈ st.blanks then .ok (pre ++ [plain "AdvCycle"])
    else if q.ctrlType = "Loop" then do
      let l ← loopStep (numOf st.nums) q
      return pre ++ [plain "AdvCycle", l]
    else do
      let s ← createStep (numOf st.nums) st.loopSteps st.cur i q
      return pre ++ [s]

/-- the last pass, 714-747 -/
def emitPass (active : List Nat) (st : NumState) : Nat → List BSeq → Except Err (List MStep)
  | _, [] => .ok []
  | i, q :: qs => do
    let s ← emit active st i q
    let rest ← emitPass active st (i + 1) qs
    return s ++ rest

/-- `_create_steps`, 518-754 -/
def createSteps (seqs : List BSeq) : Except Err (List MStep) := do
  let rev ← revPass 0 seqs
  if startsOk rev = false then .error .assertionError
  else do
    let st ← numPass seqs rev.active { cur := 1, loopSteps := [], blanks := [], nums := [] } 0 seqs
    if gotoPass rev.ranges st.blanks none 0 seqs = false then .error .valueError
    else do
      let steps ← emitPass rev.active st 0 seqs
      return steps ++ [plain "  End   "]

end Beep.BtM
