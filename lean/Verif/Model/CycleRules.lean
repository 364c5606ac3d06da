import Verif.Model.Py
/-
Model of the cycle numbering of Biologic data:
beep/structure/biologic.py:217-380 and beep/protocol/maccor_to_biologic_mb.py:1324-1511.
-/
namespace Beep.CycleRules
open Beep

/-- `CycleTransitionRules`, biologic.py:279-294 (`CycleAdvancementRules`,
maccor_to_biologic_mb.py:1324-1339, has the same fields).  Transitions are dictionaries
keyed by pairs of sequence (step) numbers. -/
structure Rules where
  techNum : Int
  doesLoop : Bool
  onStart : Int
  onTechLoop : Int
  seqTransitions : Dict (Int × Int) Int
  stepTransitions : Dict (Int × Int) Int
  deriving DecidableEq, Repr

/-- `rules.adv_cycle_seq_transitions.get((prev, cur), 0)`, biologic.py:257-259 -/
def Rules.seqAdvance (r : Rules) (prev cur : Int) : Int := (r.seqTransitions.get? (prev, cur)).getD 0

/-- loop body of biologic.py:248-263 (and maccor_to_biologic_mb.py:1492-1508) for rows with
a loop counter; a row is (sequence number, loop counter); the state is
(prev_loop_num, prev_seq_num, cycle_num); returns `cycle_nums` and the final `cycle_num` -/
def numberRows (r : Rules) : Int → Int → Int → List (Int × Int) → List Int × Int
  | _, _, c, [] => ([], c)
  | prevLoop, prevSeq, c, (seq, loop) :: rows =>
    let c' := if loop ≠ prevLoop then c + r.onTechLoop
      else if seq ≠ prevSeq then c + r.seqAdvance prevSeq seq else c
    let rest := numberRows r loop seq c' rows
    (c' :: rest.1, rest.2)

/-- loop body of biologic.py:265-274 for data without loop counter -/
def numberRowsNoLoop (r : Rules) : Int → Int → List Int → List Int
  | _, _, [] => []
  | prevSeq, c, seq :: rows =>
    let c' := if seq ≠ prevSeq then c + r.seqAdvance prevSeq seq else c
    c' :: numberRowsNoLoop r seq c' rows

/-- pairing `ns_list[indx]` with `loop_list[indx]`, biologic.py:248-250: a shorter
`loop_list` raises IndexError, a longer one is cut -/
def pairRows : List Int → List Int → Except Err (List (Int × Int))
  | [], _ => .ok []
  | _ :: _, [] => .error .indexError
  | n :: ns, l :: ls => do return (n, l) :: (← pairRows ns ls)

/-- `get_cycle_index(ns_list, rules, loop_list)`, biologic.py:217-276.  The rules are passed
already parsed, the `int()` conversions of the columns have been done (simplification).
An empty `loop_list` is falsy and counts as absent. -/
def getCycleIndex (r : Rules) (ns : List Int) (loops : Option (List Int)) : Except Err (List Int) :=
  match ns with
  | [] => .error .indexError
  | n0 :: _ =>
    match loops with
    | some (l0 :: ls) => do
      let rows ← pairRows ns (l0 :: ls)
      return (numberRows r l0 n0 (1 + r.onStart) rows).1
    | _ => .ok (numberRowsNoLoop r n0 (1 + r.onStart) ns)

/-- `add_cycle_nums_to_csvs`, maccor_to_biologic_mb.py:1464-1511, starting from
`cycle_num = c`: one list of cycle numbers for each (rules, data rows) pair.  Files are
lists of (Ns, Loop) rows; an empty file raises IndexError at `df.iloc[0]`. -/
def addCycleNums : Int → List (Rules × List (Int × Int)) → Except Err (List (List Int))
  | _, [] => .ok []
  | c, (r, rows) :: files =>
    match rows with
    | [] => .error .indexError
    | (n0, l0) :: _ => do
      let out := numberRows r l0 n0 (c + r.onStart) rows
      return out.1 :: (← addCycleNums out.2 files)

/-- a parsed JSON document (`json.loads`); numbers are integers (simplification)
(structure/biologic.py:279-380) -/
inductive J where
  | null
  | bool (b : Bool)
  | num (n : Int)
  | str (s : String)
  | arr (l : List J)
  | obj (d : List (String × J))
  deriving Repr

/-- first value under a key; `json.loads` never yields duplicate keys
(structure/biologic.py:279-380) -/
def assoc (k : String) : List (String × J) → Option J
  | [] => none
  | (k', v) :: d => if k' = k then some v else assoc k d

/-- `d[k]` with a string key (structure/biologic.py:279-380) -/
def J.item (k : String) : J → Except Err J
  | .obj d => match assoc k d with
    | some v => .ok v
    | none => .error .keyError
  | _ => .error .typeError

/-- iterating a value, `for d in value`: a string iterates over its characters and an object
over its keys; both give strings, on which `d["source"]` then raises TypeError
(structure/biologic.py:279-380) -/
def J.iter : J → Except Err (List J)
  | .arr l => .ok l
  | .obj d => .ok (d.map (fun p => .str p.1))
  | .str s => .ok (s.toList.map (fun c => .str (String.ofList [c])))
  | _ => .error .typeError

/-- a scalar that can be (part of) a dictionary key; lists and objects are unhashable
(structure/biologic.py:279-380) -/
inductive Scalar where
  | null
  | bool (b : Bool)
  | num (n : Int)
  | str (s : String)
  deriving DecidableEq, Repr

/-- hash of a key component.  Simplification: Python identifies `True` with `1`, this model
keeps booleans and numbers apart (structure/biologic.py:279-380). -/
def J.scalar : J → Except Err Scalar
  | .null => .ok .null
  | .bool b => .ok (.bool b)
  | .num n => .ok (.num n)
  | .str s => .ok (.str s)
  | _ => .error .typeError

/-- the loop of biologic.py:364-366 / 369-371 -/
def parseTransitions : List J → Dict (Scalar × Scalar) J → Except Err (Dict (Scalar × Scalar) J)
  | [], acc => .ok acc
  | d :: ds, acc => do
    let s ← d.item "source"
    let t ← d.item "target"
    let n ← d.item "adv_cycle_count"
    let s ← s.scalar
    let t ← t.scalar
    parseTransitions ds (acc.set (s, t) n)

/-- what `parse_json` returns: the constructor stores whatever it found (no type check)
(structure/biologic.py:279-380) -/
structure RawRules where
  techNum : J
  doesLoop : J
  onStart : J
  onTechLoop : J
  seqTransitions : Dict (Scalar × Scalar) J
  stepTransitions : Dict (Scalar × Scalar) J

/-- `parse_json` on the loaded document, biologic.py:355-380,
maccor_to_biologic_mb.py:1400-1425 -/
def parse (data : J) : Except Err RawRules := do
  let tn ← data.item "tech_num"
  let tl ← data.item "tech_does_loop"
  let os ← data.item "adv_cycle_on_start"
  let ol ← data.item "adv_cycle_on_tech_loop"
  let st ← parseTransitions (← (← data.item "adv_cycle_seq_transitions").iter) []
  let dt ← parseTransitions (← (← data.item "debug_adv_cycle_on_step_transitions").iter) []
  return { techNum := tn, doesLoop := tl, onStart := os, onTechLoop := ol,
           seqTransitions := st, stepTransitions := dt }

/-- the loop of biologic.py:315-326 / 328-341 -/
def writeTransitions (d : Dict (Int × Int) Int) : J :=
  .arr (d.map (fun p => .obj [("source", .num p.1.1), ("target", .num p.1.2),
    ("adv_cycle_count", .num p.2)]))

/-- `json`, biologic.py:314-353, maccor_to_biologic_mb.py:1361-1398: the document handed to
`json.dumps` -/
def write (r : Rules) : J :=
  .obj [("tech_num", .num r.techNum), ("tech_does_loop", .bool r.doesLoop),
    ("adv_cycle_on_start", .num r.onStart), ("adv_cycle_on_tech_loop", .num r.onTechLoop),
    ("adv_cycle_seq_transitions", writeTransitions r.seqTransitions),
    ("debug_adv_cycle_on_step_transitions", writeTransitions r.stepTransitions)]

end Beep.CycleRules
