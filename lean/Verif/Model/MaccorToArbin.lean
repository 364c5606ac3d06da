import Verif.Model.Py
/-
Model of beep/protocol/maccor_to_arbin.py: conversion of the steps of a Maccor procedure to
steps of an Arbin schedule.  Not modelled: the schedule shell that is read and written around
the steps, the safety ranges, and the parsing of step type texts (a step type is already
classified).
-/
namespace Beep.MtA
open Beep

/-- `StepType` (maccor_to_arbin.py:138-389) -/
inductive SType where
  | charge
  | dischrge
  | rest
  | doo (n : Nat)
  | loop (n : Nat)
  | adv
  | ende
  | other (s : String)
  deriving DecidableEq, Repr

/-- `StepMode`; `none` in the file is `unset` (maccor_to_arbin.py:138-389) -/
inductive Mode where
  | current
  | voltage
  | unset
  | other (s : String)
  deriving DecidableEq, Repr

/-- an amount: `StepValue`, with or without a "C" in its text (maccor_to_arbin.py:138-389) -/
structure Amount where
  value : Rat
  crate : Bool
  deriving DecidableEq, Repr

/-- a time text: `hh:mm:ss.frac`, or `::s.frac` when `short` (maccor_to_arbin.py:138-389) -/
structure TimeText where
  short : Bool
  hours : Nat
  minutes : Nat
  seconds : Nat
  frac : List (Fin 10)
  deriving DecidableEq, Repr

/-- `Value` of an end or report entry (maccor_to_arbin.py:411-516, 518-565) -/
inductive EVal where
  | num (x : Rat)
  | time (t : TimeText)
  deriving DecidableEq, Repr

/-- an end entry; `step` is the number in the field "Step", written with three digits
(maccor_to_arbin.py:411-516) -/
structure End where
  endType : String
  oper : String
  step : Nat
  value : EVal
  deriving DecidableEq, Repr

/-- a report entry (maccor_to_arbin.py:518-565) -/
structure Report where
  reportType : String
  value : EVal
  deriving DecidableEq, Repr

/-- an element of the XML file: missing, one dictionary, or a list (maccor_to_arbin.py:138-389) -/
inductive Entries (α : Type) where
  | absent
  | single (a : α)
  | many (l : List α)
  deriving DecidableEq, Repr

/-- limits of a step (maccor_to_arbin.py:138-389) -/
structure Limits where
  voltage : Amount
  current : Amount
  deriving DecidableEq, Repr

/-- a step of the procedure (maccor_to_arbin.py:138-389) -/
structure Step where
  type : SType
  mode : Mode
  value : Amount
  limits : Option Limits
  ends : Entries End
  reports : Entries Report
  note : String
  deriving DecidableEq, Repr

/-- a limit of an Arbin step (maccor_to_arbin.py:391-409, 411-516) -/
structure Limit where
  stepLimit : Bool
  log : Bool
  goto : String
  left : String
  sign : String
  right : Rat
  deriving DecidableEq, Repr

/-- the control fields `m_szStepCtrlType`, `m_szCtrlValue`, `m_szExtCtrlValue1`,
`m_szExtCtrlValue2`; a field that is not set keeps the value of the blank step (`none`).
A minus sign put before a text is the negation of its number (maccor_to_arbin.py:138-389). -/
structure Ctrl where
  type : String
  value : Option Rat
  ext1 : Option Rat
  ext2 : Option Rat
  deriving DecidableEq, Repr

/-- an Arbin step: control and numbered limits (`Limit0`, `Limit1`, ...) with the announced
number of limits (maccor_to_arbin.py:138-389) -/
structure AStep where
  label : String
  ctrl : Ctrl
  limits : List (Nat × Limit)
  limitNum : Nat
  deriving DecidableEq, Repr

/-- labels, maccor_to_arbin.py:124 -/
def label (i : Nat) (s : Step) : String := toString (i + 1) ++ "-" ++ s.note

/-- the search 128-134 for `Do n`: indices `k`, `k - 1`, ..., 2; the indices 1 and 0 are never
inspected -/
def searchDo (steps : List Step) (n : Nat) : Nat → Option Nat
  | 0 => none
  | 1 => none
  | k + 2 => if (steps[k + 2]?).map Step.type = some (.doo n) then some (k + 2) else searchDo steps n (k + 1)

/-- the loop of `create_metadata`, 123-135, from index `i`; `doIndex` is the Python variable
`do_index`, which survives from one iteration to the next.  The value stored for a loop step
is the index of the step to go to. -/
def metadata (steps : List Step) : Option Nat → Nat → List Step → Except Err (List (Nat × Nat))
  | _, _, [] => .ok []
  | doIndex, i, s :: ss =>
    match s.type with
    | .loop n =>
      match (searchDo steps n (i - 1)).or doIndex with
      | none => .error .valueError
      | some d => do
        let rest ← metadata steps (some d) (i + 1) ss
        return (i, d + 1) :: rest
    | _ => metadata steps doIndex (i + 1) ss

/-- `step_flow_ctrl[i]` (maccor_to_arbin.py:411-516) -/
def flowOf (flow : List (Nat × Nat)) (i : Nat) : Option Nat := (flow.find? (fun p => p.1 == i)).map Prod.snd

/-- `step_name_list[i]` (maccor_to_arbin.py:411-516) -/
def nameOf (steps : List Step) (i : Nat) : Except Err String :=
  match steps[i]? with
  | none => .error .indexError
  | some s => .ok (label i s)

/-- value of the first six digits behind the point (maccor_to_arbin.py:411-516) -/
def micro : Nat → List (Fin 10) → Rat
  | 0, _ => 0
  | _, [] => 0
  | n + 1, d :: ds => ((d : Nat) : Rat) / 10 + micro n ds / 10

/-- seconds of a time, 487-500.  The short form is `"::s".replace("::", "00:00:0")`, which has a
third digit when `s` has two, and then `strptime` raises. -/
def elapsed (t : TimeText) : Except Err Rat :=
  if t.short then
    if t.seconds < 10 then .ok (t.seconds + micro 6 t.frac) else .error .valueError
  else if t.hours < 24 ∧ t.minutes < 60 ∧ t.seconds < 60 then
    .ok (3600 * t.hours + 60 * t.minutes + t.seconds + micro 6 t.frac)
  else .error .valueError

/-- a number (maccor_to_arbin.py:411-516) -/
def EVal.num? : EVal → Except Err Rat
  | .num x => .ok x
  | .time _ => .error .valueError

/-- a time (maccor_to_arbin.py:411-516) -/
def EVal.time? : EVal → Except Err Rat
  | .num _ => .error .valueError
  | .time t => elapsed t

/-- `s.replace(" ", "")` for the comparison signs (maccor_to_arbin.py:446, 452, 471) -/
def strip (s : String) : String := String.ofList (s.toList.filter (fun c => c != ' '))

/-- `.replace("<", ">")` (maccor_to_arbin.py:455) -/
def flip (s : String) : String := String.ofList (s.toList.map (fun c => if c == '<' then '>' else c))

/-- control part of `compile_to_arbin`, 203-312 -/
def control (s : Step) : Except Err Ctrl :=
  match s.mode with
  | .current =>
    if s.value.crate = false then
      match s.limits with
      | some l =>
        match s.type with
        | .charge => .ok ⟨"CCCV", some s.value.value, some l.voltage.value, some 0⟩
        | .dischrge => .ok ⟨"CCCV", some (-s.value.value), some l.voltage.value, some 0⟩
        | _ => .ok ⟨"CCCV", none, none, none⟩
      | none =>
        match s.type with
        | .charge => .ok ⟨"Current(A)", some s.value.value, none, none⟩
        | .dischrge => .ok ⟨"Current(A)", some (-s.value.value), none, none⟩
        | _ => .ok ⟨"Current(A)", none, none, none⟩
    else
      match s.limits with
      | some l =>
        match s.type with
        | .charge => .ok ⟨"CCCV", some s.value.value, some l.voltage.value, some 0⟩
        | .dischrge => .ok ⟨"CCCV", some (-s.value.value), none, none⟩
        | _ => .ok ⟨"CCCV", none, none, none⟩
      | none =>
        match s.type with
        | .charge => .ok ⟨"C-Rate", some s.value.value, none, none⟩
        | .dischrge => .ok ⟨"C-Rate", some (-s.value.value), none, none⟩
        | _ => .ok ⟨"C-Rate", none, none, none⟩
  | .voltage =>
    match s.limits with
    | some l =>
      if l.current.crate then .error .valueError
      else
        match s.type with
        | .charge => .ok ⟨"CCCV", some l.current.value, some s.value.value, some 0⟩
        | .dischrge => .ok ⟨"CCCV", some (-l.current.value), some s.value.value, some 0⟩
        | _ => .ok ⟨"CCCV", none, none, none⟩
    | none =>
      match s.type with
      | .charge => .ok ⟨"Voltage(V)", some s.value.value, none, none⟩
      | .dischrge => .ok ⟨"Voltage(V)", some s.value.value, none, none⟩
      | _ => .ok ⟨"Voltage(V)", none, none, none⟩
  | .unset =>
    match s.type with
    | .rest => match s.limits with
      | none => .ok ⟨"Rest", none, none, none⟩
      | some _ => .error .valueError
    | .adv => .ok ⟨"Set Variable(s)", some 15, some 1, some 0⟩
    | .loop n => if n = 1 ∨ n = 2 then .ok ⟨"Set Variable(s)", some 0, some (2 ^ n), some 0⟩ else .error .valueError
    | .doo n => if n = 1 ∨ n = 2 then .ok ⟨"Set Variable(s)", some (2 ^ (n + 15)), some 0, some 0⟩
      else .error .valueError
    | .ende => .ok ⟨"Rest", none, none, none⟩
    | _ => .error .valueError
  | .other _ => .error .valueError

/-- the number in the text of a loop step type (maccor_to_arbin.py:138-389) -/
def counterOf : SType → Except Err Nat
  | .loop n => .ok n
  | .doo n => .ok n
  | _ => .error .valueError

/-- the current limit of a CCCV or voltage step, 446-484 -/
def currentLimit (e : End) (t : SType) (goto left : String) : Except Err Limit := do
  let v ← e.value.num?
  match t with
  | .charge => return { stepLimit := true, log := true, goto := goto, left := left, sign := strip e.oper, right := v }
  | .dischrge =>
    return { stepLimit := true, log := true, goto := goto, left := left, sign := flip (strip e.oper), right := -v }
  | _ => .error .valueError

/-- `convert_end_to_limit`, 411-516; `i` is the index of the step, `ctrlType` the control type
of the Arbin step -/
def convertEnd (steps : List Step) (flow : List (Nat × Nat)) (ctrlType : String) (i : Nat) (t : SType) (e : End) :
    Except Err Limit := do
  let goto ← (if e.step = i + 2 then .ok "Next Step" else if e.step = 0 then
      nameOf steps (steps.length - 1) else nameOf steps (e.step - 1))
  if e.endType = "Voltage" then do
    let v ← e.value.num?
    return { stepLimit := true, log := true, goto := goto, left := "PV_CHAN_Voltage", sign := strip e.oper, right := v }
  else if e.endType = "Current" ∧ ctrlType = "CCCV" then currentLimit e t goto "PV_CHAN_CV_Stage_Current"
  else if e.endType = "Current" ∧ ctrlType = "Voltage(V)" then currentLimit e t goto "PV_CHAN_Current"
  else if e.endType = "StepTime" then do
    let v ← e.value.time?
    return { stepLimit := true, log := true, goto := goto, left := "PV_CHAN_Step_Time", sign := ">", right := v }
  else if e.endType = "Loop Cnt" then do
    let n ← counterOf t
    let v ← e.value.num?
    return { stepLimit := true, log := true, goto := goto, left := "TC_Counter" ++ toString n, sign := strip e.oper,
             right := v }
  else if e.endType = "Loop Addendum" then do
    let n ← counterOf t
    let v ← e.value.num?
    match flowOf flow i with
    | none => .error .keyError
    | some k => do
      let g ← nameOf steps k
      return { stepLimit := true, log := true, goto := g, left := "TC_Counter" ++ toString n, sign := "<", right := v }
  else .error .valueError

/-- `convert_report_to_logging_limit`, 518-565.  An unknown report type keeps the blank
equation. -/
def convertReport (r : Report) : Except Err Limit :=
  let mk (left : String) (v : Rat) : Limit :=
    { stepLimit := false, log := true, goto := "Next Step", left := left, sign := ">", right := v }
  if r.reportType = "Voltage" then do return mk "DV_Voltage" (← r.value.num?)
  else if r.reportType = "Current" then do return mk "DV_Current" (← r.value.num?)
  else if r.reportType = "StepTime" then do return mk "DV_Time" (← r.value.time?)
  else .ok { stepLimit := false, log := true, goto := "Next Step", left := "", sign := "", right := 0 }

/-- mapping with early exit (maccor_to_arbin.py:138-389) -/
def mapE {α β : Type} (f : α → Except Err β) : List α → Except Err (List β)
  | [] => .ok []
  | a :: as => do
    let b ← f a
    let bs ← mapE f as
    return b :: bs

/-- `add_blank_limit`, 391-409 -/
def blankLimit : Limit :=
  { stepLimit := true, log := false, goto := "Next Step", left := "PV_CHAN_Step_Time", sign := ">", right := 0 }

/-- numbering of consecutive limits (maccor_to_arbin.py:138-389) -/
def number {α : Type} : Nat → List α → List (Nat × α)
  | _, [] => []
  | k, a :: as => (k, a) :: number (k + 1) as

/-- the ends of a step after the loop addendum has been put in, 280-297.  The procedure itself
is changed: the field "EndEntry" of the step becomes this list. -/
def addendum (flow : List (Nat × Nat)) (i : Nat) (s : Step) : Except Err Step :=
  match s.mode, s.type with
  | .unset, .loop n =>
    if n = 1 ∨ n = 2 then
      match flowOf flow i with
      | none => .error .keyError
      | some k =>
        match s.ends with
        | .single e => .ok { s with ends := .many [{ endType := "Loop Addendum", oper := "< ", step := k + 1, value := e.value }, e] }
        | .many _ => .error .typeError
        | .absent => .error .typeError
    else .ok s
  | _, _ => .ok s

/-- number of keys of an end entry (EndType, SpecialType, Oper, Step, Value)
(maccor_to_arbin.py:138-389) -/
def endKeys : Nat := 5

/-- ends and reports of `compile_to_arbin`, 314-377: the limits and the announced number -/
def limitsOf (steps : List Step) (flow : List (Nat × Nat)) (ctrlType : String) (i : Nat) (s : Step) :
    Except Err (List (Nat × Limit) × Nat) := do
  let ends ← (match s.ends with
    | .absent => .ok [blankLimit]
    | .single e => do return [← convertEnd steps flow ctrlType i s.type e]
    | .many l => mapE (convertEnd steps flow ctrlType i s.type) l)
  let base := number 0 ends
  match s.reports, s.ends with
  | .absent, _ => .ok (base, ends.length)
  | .single _, .absent => .error .typeError
  | .single r, .single _ => do return (base ++ [(endKeys, ← convertReport r)], ends.length + 1)
  | .single r, .many _ => do return (base ++ [(ends.length, ← convertReport r)], ends.length + 1)
  | .many _, .absent => .error .typeError
  | .many _, .single _ => .ok (base, ends.length)
  | .many rs, .many _ => do
    let ls ← mapE convertReport rs
    return (base ++ number ends.length ls, ends.length + ls.length)

/-- `compile_to_arbin`, 138-379, together with the step it leaves behind in the procedure -/
def compile (steps : List Step) (flow : List (Nat × Nat)) (i : Nat) (s : Step) : Except Err (AStep × Step) := do
  let c ← control s
  let s' ← addendum flow i s
  let l ← limitsOf steps flow c.type i s'
  return ({ label := label i s, ctrl := c, limits := l.1, limitNum := l.2 }, s')

/-- the loop of `create_sdu`, 93-107: compiled steps and the changed procedure -/
def compileAll (steps : List Step) (flow : List (Nat × Nat)) : Nat → List Step → Except Err (List (AStep × Step))
  | _, [] => .ok []
  | i, s :: ss => do
    let a ← compile steps flow i s
    let rest ← compileAll steps flow (i + 1) ss
    return a :: rest

/-- `create_sdu`, 44-107, restricted to the steps; returns the schedule steps and the procedure as
left behind in the object -/
def createSdu (steps : List Step) : Except Err (List AStep × List Step) := do
  let flow ← metadata steps none 0 steps
  let out ← compileAll steps flow 0 steps
  return (out.map Prod.fst, out.map Prod.snd)

end Beep.MtA
