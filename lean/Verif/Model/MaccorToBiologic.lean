import Verif.Model.Units
import Verif.Model.CycleRules
/-
Model of beep/protocol/maccor_to_biologic_mb.py: from the step list of a Maccor procedure to
techniques, sequences and cycle rules.  Parsing of the XML file and the text of the .mps
file are not part of this model.
-/
namespace Beep.MtB
open Beep Beep.Units Beep.CycleRules

/-- the text of a value field: a decimal number, a time, or something else
(maccor_to_biologic_mb.py:96-195) -/
inductive Val where
  | num (d : Dec)
  | time (t : Time)
  | text (s : String)
  deriving DecidableEq, Repr

/-- `float(value)` (maccor_to_biologic_mb.py:96-195) -/
def Val.float : Val → Except Err Rat
  | .num d => .ok d.value
  | _ => .error .valueError

/-- an element that xmltodict returns as nothing, a single dictionary or a list
(maccor_to_biologic_mb.py:213-451) -/
inductive Entries (α : Type) where
  | absent
  | single (a : α)
  | many (l : List α)
  deriving DecidableEq, Repr

/-- the list view, maccor_to_biologic_mb.py:301-303, 400-406 -/
def Entries.toList {α : Type} : Entries α → List α
  | .absent => []
  | .single a => [a]
  | .many l => l

/-- `EndEntry`; `step` is `int(end_entry["Step"])` (maccor_to_biologic_mb.py:213-451) -/
structure EndEntry where
  endType : String
  oper : String
  value : Val
  step : Int
  deriving DecidableEq, Repr

/-- `ReportEntry` (maccor_to_biologic_mb.py:213-451) -/
structure Report where
  reportType : String
  value : Val
  deriving DecidableEq, Repr

/-- `Limits` of a step: the entries `Voltage` and `Current` that are plain strings
(maccor_to_biologic_mb.py:682-776) -/
structure Limits where
  voltage : Option Val
  current : Option Val
  deriving DecidableEq, Repr

/-- a `TestStep` of the Maccor procedure (maccor_to_biologic_mb.py:213-451) -/
structure Step where
  stepType : String
  stepMode : String
  stepValue : Option Val
  limits : Option Limits
  ends : Entries EndEntry
  reports : Entries Report
  deriving DecidableEq, Repr

/-! ### end entry filters -/

/-- filtering in the order of the list, `pred` may raise (maccor_to_biologic_mb.py:682-776) -/
def filterE {α : Type} (pred : α → Except Err Bool) : List α → Except Err (List α)
  | [] => .ok []
  | a :: as => do
    let keep ← pred a
    let rest ← filterE pred as
    return if keep then a :: rest else rest

/-- `_create_step_end_entry_filter`, maccor_to_biologic_mb.py:682-704.  A single entry is a
dictionary: the loop runs over its keys, for which every predicate answers True, so the step
comes back unchanged. -/
def filterEnds (pred : EndEntry → Except Err Bool) (s : Step) : Except Err Step :=
  match s.ends with
  | .absent => .ok s
  | .single _ => .ok s
  | .many l => do
    let kept ← filterE pred l
    return if kept.length = l.length then s
      else { s with ends := if kept.length > 0 then .many kept else .absent }

/-- predicate of `_filter_end_entry_by_max_voltage`, 706-722 -/
def keepMaxVoltage (lim : Option Rat) (e : EndEntry) : Except Err Bool :=
  match lim with
  | none => .ok true
  | some m => if e.endType ≠ "Voltage" then .ok true
    else do return !(e.oper == ">=" && decide (m ≤ (← e.value.float)))

/-- predicate of `_filter_end_entry_by_min_voltage`, 724-740 -/
def keepMinVoltage (lim : Option Rat) (e : EndEntry) : Except Err Bool :=
  match lim with
  | none => .ok true
  | some m => if e.endType ≠ "Voltage" then .ok true
    else do return !(e.oper == "<=" && decide ((← e.value.float) ≤ m))

/-- predicate of `_filter_end_entry_by_max_current`, 742-758 -/
def keepMaxCurrent (lim : Option Rat) (e : EndEntry) : Except Err Bool :=
  match lim with
  | none => .ok true
  | some m => if e.endType ≠ "Current" then .ok true
    else do return !(e.oper == ">=" && decide (m < (← e.value.float)))

/-- predicate of `_filter_end_entry_by_min_current`, 760-776 -/
def keepMinCurrent (lim : Option Rat) (e : EndEntry) : Except Err Bool :=
  match lim with
  | none => .ok true
  | some m => if e.endType ≠ "Current" then .ok true
    else do return !(e.oper == "<=" && decide ((← e.value.float) < m))

/-- the configured limits, maccor_to_biologic_mb.py:58-61 -/
structure Config where
  maxV : Option Rat
  minV : Option Rat
  maxI : Option Rat
  minI : Option Rat
  deriving DecidableEq, Repr

/-- body of `_apply_step_mappings` for one step, 781-793, without user supplied mappers -/
def mapStep (c : Config) (s : Step) : Except Err Step := do
  let s ← filterEnds (keepMaxCurrent c.maxI) s
  let s ← filterEnds (keepMinCurrent c.minI) s
  let s ← filterEnds (keepMaxVoltage c.maxV) s
  filterEnds (keepMinVoltage c.minV) s

/-! ### sequence mappings -/

/-- a sequence of the .mps file seen as its fields (maccor_to_biologic_mb.py:778-859) -/
abbrev SeqFields := Dict String String

/-- `_apply_{max,min}_{current,voltage}_to_seq`, 797-827: writes one field when the limit is
configured.  `lim` is the formatted limit. -/
def applyLimit (field : String) (lim : Option String) (seq : SeqFields) : SeqFields :=
  match lim with
  | none => seq
  | some v => seq.set field v

/-- the configured limits as formatted text (maccor_to_biologic_mb.py:41-94) -/
structure LimitText where
  maxI : Option String
  minI : Option String
  maxV : Option String
  minV : Option String

/-- body of `_apply_seq_mappings` for one sequence, 847-857: every mapping is applied to
`seq`, not to the result of the previous one -/
def mapSeq (l : LimitText) (mappers : List (SeqFields → SeqFields)) (seq : SeqFields) : SeqFields :=
  let _ := applyLimit "I Range Max" l.maxI seq
  let _ := applyLimit "I Range Min" l.minI seq
  let _ := applyLimit "E Range Max (V)" l.maxV seq
  let mapped := applyLimit "E Range Min (V)" l.minV seq
  mappers.foldl (fun _ m => m seq) mapped

/-! ### splitting a step -/

/-- `_split_step`, 874-931.  `get(step_part_1, "EndsEndEntries")` names no element, so the
list of original ends is always empty (line 894). -/
def splitStep (s : Step) (stepNum : Int) : Except Err (List Step) :=
  match s.limits with
  | none => .ok [s]
  | some lims =>
    if s.stepMode = "Current" ∨ s.stepMode = "Voltage" then
      let acceptable := if s.stepMode = "Current" then "Voltage" else "Current"
      match (if s.stepMode = "Current" then lims.voltage else lims.current) with
      | none => .error .valueError
      | some lim =>
        if s.stepType = "Charge" then
          .ok [{ s with ends := .single { endType := acceptable, oper := ">=", value := lim, step := stepNum + 1 } },
               { s with stepMode := acceptable, stepValue := some lim }]
        else if s.stepType = "Dischrge" then
          .ok [{ s with ends := .single { endType := acceptable, oper := "<=", value := lim, step := stepNum + 1 } },
               { s with stepMode := acceptable, stepValue := some lim }]
        else .error .valueError
    else .error .valueError

/-! ### sequences -/

/-- one limit of a sequence (`lim1_type`, `lim1_comp`, ...) (maccor_to_biologic_mb.py:213-451) -/
structure Lim where
  type : String
  comp : String
  value : Rat
  unit : String
  goto : Int
  jumps : Bool      -- `lim_action` is "Goto sequence"
  deriving DecidableEq, Repr

/-- one record rule of a sequence (`rec1_type`, ...) (maccor_to_biologic_mb.py:213-451) -/
structure Rec where
  type : String
  value : Rat
  unit : String
  deriving DecidableEq, Repr

/-- a sequence of the .mps file; only the fields the converter computes
(maccor_to_biologic_mb.py:213-451) -/
structure Seq where
  ns : Int
  ctrlType : String
  value : Option (Rat × String)
  charge : Bool
  lims : List Lim
  recs : List Rec
  repeats : Int
  loopTo : Int
  deriving DecidableEq, Repr

/-- the magic number END_SEQ_NUM, line 30 (maccor_to_biologic_mb.py:30) -/
def endSeqNum : Int := 9999

/-- number of a value that must be a decimal (maccor_to_biologic_mb.py:96-195) -/
def Val.dec : Val → Except Err Dec
  | .num d => .ok d
  | _ => .error .valueError

/-- number of a value that must be a time (maccor_to_biologic_mb.py:96-195) -/
def Val.getTime : Val → Except Err Time
  | .time t => .ok t
  | _ => .error .valueError

/-- `operator_map[...]`, 238-241 -/
def operatorMap (o : String) : Except Err String :=
  if o = ">=" then .ok ">" else if o = "<=" then .ok "<" else .error .keyError

/-- the target of an end entry, 350-356 -/
def gotoSeq (seqNums : Int → Option (List Int)) (stepNum seqNum endStep target : Int) : Except Err Int :=
  if target = stepNum + 1 then .ok (seqNum + 1)
  else if target = endStep then .ok endSeqNum
  else match seqNums target with
    | some (q :: _) => .ok q
    | some [] => .error .indexError
    | none => .error .keyError

/-- one end entry, 320-397 -/
def convertEnd (seqNums : Int → Option (List Int)) (stepNum seqNum lo hi endStep : Int) (e : EndEntry) :
    Except Err Lim :=
  if e.step < lo ∨ (e.step > hi ∧ e.step ≠ endStep) then .error .valueError
  else do
    let g ← gotoSeq seqNums stepNum seqNum endStep e.step
    let jumps := decide (e.step ≠ stepNum + 1)
    if e.endType = "StepTime" then
      if e.oper ≠ "=" then .error .valueError
      else do
        let v := convertTime (← e.value.getTime)
        return { type := "Time", comp := ">", value := v.1, unit := v.2, goto := g, jumps := jumps }
    else if e.endType = "Voltage" then do
      let comp ← operatorMap e.oper
      let v := convertVolts (← e.value.dec)
      return { type := "Ecell", comp := comp, value := v.1, unit := v.2, goto := g, jumps := jumps }
    else if e.endType = "Current" then do
      let comp ← operatorMap e.oper
      let v := convertAmps (← e.value.dec)
      return { type := "|I|", comp := comp, value := v.1, unit := v.2, goto := g, jumps := jumps }
    else .error .valueError

/-- one report entry, 420-448 -/
def convertReport (r : Report) : Except Err Rec :=
  if r.reportType = "StepTime" then do
    let v := convertTime (← r.value.getTime)
    return { type := "Time", value := v.1, unit := v.2 }
  else if r.reportType = "Voltage" then do
    let v := convertVolts (← r.value.dec)
    return { type := "Ecell", value := v.1, unit := v.2 }
  else if r.reportType = "Current" then do
    let v := convertAmps (← r.value.dec)
    return { type := "I", value := v.1, unit := v.2 }
  else .error .valueError

/-- mapping with early exit (the loops of maccor_to_biologic_mb.py:951-1044) -/
def mapE {α β : Type} (f : α → Except Err β) : List α → Except Err (List β)
  | [] => .ok []
  | a :: as => do
    let b ← f a
    let bs ← mapE f as
    return b :: bs

/-- type, control and value of a sequence, 243-298 -/
def control (s : Step) : Except Err (String × Option (Rat × String) × Bool) :=
  if s.stepType = "Rest" then .ok ("Rest", none, true)
  else if s.stepType ≠ "Charge" ∧ s.stepType ≠ "Dischrge" then .error .valueError
  else if s.stepMode = "Current" then
    match s.stepValue with
    | none => .error .assertionError
    | some v => do return ("CC", some (convertAmps (← v.dec)), decide (s.stepType = "Charge"))
  else if s.stepMode = "Voltage" then
    match s.stepValue with
    | none => .error .assertionError
    | some v => do return ("CV", some (convertVolts (← v.dec)), decide (s.stepType = "Charge"))
  else .error .valueError

/-- one part of a step, body of the loop of `_convert_step_parts`, 226-450 -/
def convertPart (seqNums : Int → Option (List Int)) (stepNum lo hi endStep : Int) (part : Step)
    (seqNum : Int) : Except Err Seq := do
  let c ← control part
  let ends := part.ends.toList
  if ends.length > 3 then .error .valueError
  else do
    let lims ← mapE (convertEnd seqNums stepNum seqNum lo hi endStep) ends
    let reports := part.reports.toList
    if reports.length > 3 then .error .valueError
    else do
      let recs ← mapE convertReport reports
      return { ns := seqNum, ctrlType := c.1, value := c.2.1, charge := c.2.2, lims := lims,
               recs := recs, repeats := 0, loopTo := 0 }

/-- `_convert_step_parts`, 213-451: parts and their sequence numbers pairwise -/
def convertParts (seqNums : Int → Option (List Int)) (stepNum lo hi endStep : Int) :
    List Step → List Int → Except Err (List Seq)
  | [], [] => .ok []
  | p :: ps, q :: qs => do
    let s ← convertPart seqNums stepNum lo hi endStep p q
    let rest ← convertParts seqNums stepNum lo hi endStep ps qs
    return s :: rest
  | _, _ => .error .assertionError

/-- `_create_loop_seq`, 453-466 -/
def loopSeq (seqNum target repeats : Int) : Seq :=
  { ns := seqNum, ctrlType := "Loop", value := none, charge := true, lims := [], recs := [],
    repeats := repeats, loopTo := target }

/-- step types that open a loop, 957 (maccor_to_biologic_mb.py:957) -/
def isOpen (t : String) : Bool := t == "Do 1" || t == "Do 2"
/-- step types that close a loop, 956 (maccor_to_biologic_mb.py:956) -/
def isClose (t : String) : Bool := t == "Loop 1" || t == "Loop 2"

/-- the parts of a step in the first pass, 964-971 -/
def partsOf (s : Step) (stepNum : Int) : Except Err (List Step) :=
  if isOpen s.stepType || s.stepType == "AdvCycle" then .ok []
  else if isClose s.stepType then .ok [s]
  else splitStep s stepNum

/-- sequence numbers of a step with `n` parts when `q` is the next number, 973-985 -/
def seqNumsOf (q : Int) (n : Nat) : List Int :=
  if n = 0 then [q] else (List.range n).map (fun (k : Nat) => q + (k : Int))

/-- one entry per step of a technique: its number, the step, its parts and its sequence
numbers (`seq_nums_by_step_num[step_num]`) (maccor_to_biologic_mb.py:951-1044) -/
structure Numbered where
  num : Int
  step : Step
  parts : List Step
  seqs : List Int
  deriving Repr

/-- first pass of `_convert_steps_to_seqs`, 955-988 -/
def numberSteps : Int → Int → List Step → Except Err (List Numbered)
  | _, _, [] => .ok []
  | num, q, s :: ss => do
    let parts ← partsOf s num
    let rest ← numberSteps (num + 1) (q + parts.length) ss
    return { num := num, step := s, parts := parts, seqs := seqNumsOf q parts.length } :: rest

/-- `seq_nums_by_step_num` (maccor_to_biologic_mb.py:951-1044) -/
def seqNumsByStep (l : List Numbered) (n : Int) : Option (List Int) :=
  (l.find? (fun x => x.num == n)).map Numbered.seqs

/-- `int(get(step, "Ends.EndEntry.Value"))` of a loop step, 1018: a single end entry whose
value is an integer literal (maccor_to_biologic_mb.py:1018) -/
def loopCount (s : Step) : Except Err Int :=
  match s.ends with
  | .single e => match e.value with
    | .num d => if d.frac = [] ∧ d.exp = 0 then .ok (if d.neg then -(d.int : Int) else d.int) else .error .valueError
    | _ => .error .valueError
  | _ => .error .typeError

/-- second pass of `_convert_steps_to_seqs`, 999-1042; the state is
(goto_lowerbound, prev_loop_open_step_num) -/
def buildSeqs (all : List Numbered) (hi endStep : Int) : Int → Option Int → List Numbered → Except Err (List Seq)
  | _, _, [] => .ok []
  | lo, opened, x :: xs =>
    if isOpen x.step.stepType then buildSeqs all hi endStep (x.num + 1) (some x.num) xs
    else if x.step.stepType = "AdvCycle" then buildSeqs all hi endStep lo opened xs
    else if isClose x.step.stepType then
      match opened with
      | none => .error .valueError
      | some o =>
        match x.seqs, seqNumsByStep all o with
        | [q], some (t :: _) => do
          let n ← loopCount x.step
          let rest ← buildSeqs all hi endStep (x.num + 1) none xs
          return loopSeq q t (max (n - 1) 0) :: rest
        | _, _ => .error .assertionError
    else do
      let seqs ← convertParts (seqNumsByStep all) x.num lo hi endStep x.parts x.seqs
      let rest ← buildSeqs all hi endStep lo opened xs
      return seqs ++ rest

/-- `_convert_steps_to_seqs`, 951-1044 (without `step_nums_by_seq_num`, which nothing reads) -/
def convertSteps (steps : List Step) (offset endStep : Int) : Except Err (List Numbered × List Seq) := do
  let all ← numberSteps (offset + 1) 0 steps
  let seqs ← buildSeqs all (offset + steps.length + 1) endStep offset none all
  return (all, seqs)

/-! ### techniques -/

/-- `TechniquePartition`, 1286-1299 -/
structure Technique where
  num : Nat
  steps : List Step
  offset : Nat
  loops : Bool
  numLoops : Int
  deriving DecidableEq, Repr

/-- state of the loop 610-629: `tech_ranges` (with the loop count of a looping technique),
`curr_loop_1_start`, `curr_tech_start`, `in_loop_tech` -/
structure PState where
  ranges : List (Nat × Nat × Option Int)
  loopStart : Option Nat
  techStart : Nat
  inLoop : Bool
  deriving DecidableEq, Repr

/-- one iteration of the loop, 611-629 -/
def partStep (st : PState) (i : Nat) (s : Step) : Except Err PState :=
  if s.stepType = "Do 1" then .ok { st with loopStart := some i }
  else if s.stepType = "Do 2" then
    match st.loopStart with
    | none => .error .assertionError
    | some _ => .ok { st with inLoop := true }
  else if s.stepType = "Loop 1" ∧ st.inLoop = true then
    match st.loopStart with
    | none => .error .assertionError
    | some l => do
      let pre := if st.techStart ≠ l then [(st.techStart, l, none)] else []
      let n ← loopCount s
      return { ranges := st.ranges ++ pre ++ [(l, i + 1, some n)], loopStart := none,
               techStart := i + 1, inLoop := false }
  else .ok st

/-- the loop 610-629 from step index `i` -/
def partLoop : PState → Nat → List Step → Except Err PState
  | st, _, [] => .ok st
  | st, i, s :: ss => do
    let st' ← partStep st i s
    partLoop st' (i + 1) ss

/-- the loop 643-666 with its assertions; `prev` is `prev_end`, `num` the technique number -/
def buildTechniques (steps : List Step) : Nat → Nat → List (Nat × Nat × Option Int) → Except Err (List Technique)
  | _, _, [] => .ok []
  | prev, num, (s, e, lp) :: rs =>
    if prev ≠ s ∨ e ≤ s then .error .assertionError
    else
      match lp with
      | some n => do
        let rest ← buildTechniques steps e (num + 2) rs
        return { num := num, steps := (steps.take (e - 1)).drop (s + 1), offset := s + 1, loops := true,
                 numLoops := n } :: rest
      | none => do
        let rest ← buildTechniques steps e (num + 1) rs
        return { num := num, steps := (steps.take e).drop s, offset := s, loops := false, numLoops := 0 } :: rest

/-- `_partition_steps_into_techniques`, 600-668 -/
def partition (steps : List Step) : Except Err (List Technique) := do
  let st ← partLoop { ranges := [], loopStart := none, techStart := 0, inLoop := false } 0 steps
  let ranges := if st.techStart < steps.length then st.ranges ++ [(st.techStart, steps.length, none)] else st.ranges
  match ranges.head?, ranges.getLast? with
  | some a, some b =>
    if a.1 ≠ 0 ∨ b.2.1 ≠ steps.length then .error .assertionError
    else buildTechniques steps 0 1 ranges
  | _, _ => .error .indexError

/-! ### cycle advancement rules -/

/-- state of the loop over the steps of a technique, 1087-1162: `adv_cycle_count`,
`cycle_advances_on_tech_start`, `prev_loop_open` (index), `prev_measurement_step_num`,
`cycle_advances_by_step_transition` -/
structure RState where
  adv : Int
  onStart : Int
  opened : Option Nat
  prevMeas : Option Int
  trans : Dict (Int × Int) Int
  deriving DecidableEq, Repr

/-- the search for the first measurement of a loop body, 1129-1149: indices `j`, `j + 1`, ...
for `fuel` steps.  The step number is computed as `j + offset`, which is the number of the
step before index `j`.  Returns the transition target and the advances, or nothing when the
range is exhausted. -/
def loopSearch (steps : List Step) (offset : Nat) (stepNum m : Int) : Nat → Nat → Int →
    Except Err (Option (Int × Int))
  | 0, _, _ => .ok none
  | fuel + 1, j, adv =>
    let looped : Int := j + offset
    if looped = stepNum then .error .valueError
    else if looped = m then .error .valueError
    else if (steps[j]?).map Step.stepType = some "Adv Cycle" then
      loopSearch steps offset stepNum m fuel (j + 1) (adv + 1)
    else .ok (some (looped, adv))

/-- one iteration, 1095-1162, for step index `i` of a technique with the given steps and
offset; `openT`/`closeT` are the allowed loop types, `badOpen`/`badClose` the forbidden
ones. -/
def ruleStep (steps : List Step) (offset : Nat) (openT closeT badOpen badClose : String) (st : RState)
    (i : Nat) (s : Step) : Except Err RState :=
  let stepNum : Int := i + offset + 1
  if s.stepType = badClose ∨ s.stepType = badOpen then .error .valueError
  else if s.stepType = "AdvCycle" then .ok { st with adv := st.adv + 1 }
  else if s.stepType = openT then
    match st.opened with
    | some _ => .error .valueError
    | none => .ok { st with opened := some i }
  else if s.stepType = closeT then
    match st.opened with
    | none => .error .valueError
    | some o =>
      if st.adv > 0 then
        match st.prevMeas with
        | none => .error .valueError
        | some m => do
          match ← loopSearch steps offset stepNum m (i - o) (o + 1) st.adv with
          | none => return { st with opened := none }
          | some (looped, n) => return { st with trans := st.trans.set (m, looped) n, opened := none }
      else .ok { st with opened := none }
  else
    match s.reports with
    | .absent => .error .assertionError
    | _ =>
      match st.prevMeas with
      | none => .ok { st with onStart := st.onStart + st.adv, prevMeas := some stepNum, adv := 0 }
      | some m =>
        if st.adv > 0 then
          .ok { st with trans := st.trans.set (m, stepNum) st.adv, prevMeas := some stepNum, adv := 0 }
        else .ok { st with prevMeas := some stepNum, adv := 0 }

/-- the loop 1094-1162 from index `i` -/
def ruleLoop (steps : List Step) (offset : Nat) (openT closeT badOpen badClose : String) :
    RState → Nat → List Step → Except Err RState
  | st, _, [] => .ok st
  | st, i, s :: ss => do
    let st' ← ruleStep steps offset openT closeT badOpen badClose st i s
    ruleLoop steps offset openT closeT badOpen badClose st' (i + 1) ss

/-- translation of step transitions to sequence transitions, 1174-1183 -/
def toSeqTransitions (seqNums : Int → Option (List Int)) : Dict (Int × Int) Int → Dict (Int × Int) Int →
    Except Err (Dict (Int × Int) Int)
  | [], acc => .ok acc
  | ((s, t), n) :: rest, acc =>
    match (seqNums s).bind List.getLast?, (seqNums t).bind List.head? with
    | some qs, some qt => toSeqTransitions seqNums rest (acc.set (qs, qt) n)
    | _, _ => .error .keyError

/-- a technique after conversion: the partition and its numbered steps
(maccor_to_biologic_mb.py:1222-1283) -/
structure Converted where
  tech : Technique
  numbered : List Numbered
  deriving Repr

/-- body of the outer loop of `_create_cycle_advancement_rules`, 1081-1194; `carry` is
`adv_cycle_count` left by the previous technique; returns the rules and the new count -/
def rulesOf (carry : Int) (c : Converted) : Except Err (Rules × Int) := do
  let t := c.tech
  let openT := if t.loops then "Do 2" else "Do 1"
  let badOpen := if t.loops then "Do 1" else "Do 2"
  let closeT := if t.loops then "Loop 2" else "Loop 1"
  let badClose := if t.loops then "Loop 1" else "Loop 2"
  let st ← ruleLoop t.steps t.offset openT closeT badOpen badClose
    { adv := 0, onStart := carry, opened := none, prevMeas := none, trans := [] } 0 t.steps
  let seqT ← toSeqTransitions (seqNumsByStep c.numbered) st.trans []
  return ({ techNum := t.num, doesLoop := t.loops, onStart := st.onStart, onTechLoop := st.adv,
            seqTransitions := seqT, stepTransitions := st.trans }, st.adv)

/-- `_create_cycle_advancement_rules`, 1056-1195 -/
def createRules : Int → List Converted → Except Err (List Rules)
  | _, [] => .ok []
  | carry, c :: cs => do
    let r ← rulesOf carry c
    let rest ← createRules r.2 cs
    return r.1 :: rest

/-- `convert`, 1222-1266, without the user supplied mappers and the file output: the
techniques with their sequences, and the cycle rules -/
def convert (cfg : Config) (steps : List Step) : Except Err (List (Converted × List Seq) × List Rules) := do
  let steps ← mapE (mapStep cfg) steps
  match steps.getLast? with
  | none => .error .assertionError
  | some last =>
    if last.stepType ≠ "End" then .error .assertionError
    else do
      let endStep : Int := steps.length
      let techs ← partition steps.dropLast
      let conv ← mapE (fun t => do
        let r ← convertSteps t.steps t.offset endStep
        return (({ tech := t, numbered := r.1 } : Converted), r.2)) techs
      let rules ← createRules 0 (conv.map Prod.fst)
      return (conv, rules)

end Beep.MtB
