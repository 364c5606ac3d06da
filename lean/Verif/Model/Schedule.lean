import Verif.Model.ArbinFile
/-
Model of the labelled edits of a schedule, beep/protocol/arbin.py 142-233.
-/
namespace Beep.Arbin
open Beep Beep.Dash

/-- the key "Schedule" (arbin.py:143-233) -/
def kSchedule : Str := "Schedule".toList
/-- the key "m_szLabel" (arbin.py:143-233) -/
def kLabel : Str := "m_szLabel".toList
/-- the prefix "Limit" (arbin.py:143-233) -/
def kLimit : Str := "Limit".toList
/-- the key "m_bStepLimit" (arbin.py:221) -/
def kStepLimit : Str := "m_bStepLimit".toList
/-- the key "Equation0_szLeft" (arbin.py:222) -/
def kLeft : Str := "Equation0_szLeft".toList
/-- the key "Equation0_szCompareSign" (arbin.py:225) -/
def kSign : Str := "Equation0_szCompareSign".toList
/-- the key "Equation0_szRight" (arbin.py:228) -/
def kRight : Str := "Equation0_szRight".toList

/-- `self["Schedule"].keys()`, 158 (arbin.py:158) -/
def stepKeys (o : Obj) : Except Err (List Str) :=
  match o.find kSchedule with
  | some (.obj s) => .ok s.keys
  | some (.str _) => .error .attributeError
  | none => .error .keyError

/-- the filter of `get_labelled_steps`, 156-159 -/
def hasLabel (label : Str) (o : Obj) (x : Str) : Bool := getP o [kSchedule, x, kLabel] = some (.str label)

/-- the loop of `set_labelled_steps`, 185-188.  The filter is lazy: it looks at the dictionary as
changed so far. -/
def setSteps (label key : Str) (v : Val) (first : Bool) : Obj → List Str → Except Err Obj
  | o, [] => .ok o
  | o, x :: xs =>
    if hasLabel label o x then do
      let o' ← setP o [kSchedule, x, key] v
      if first then return o' else setSteps label key v first o' xs
    else setSteps label key v first o xs

/-- `set_labelled_steps`, 163-190, for a key without dots; `first` is `mode == "first"` -/
def setLabelledSteps (o : Obj) (label key : Str) (v : Val) (first : Bool) : Except Err Obj := do
  setSteps label key v first o (← stepKeys o)

/-- the limits of a step, 216-220: the headings that start with "Limit"; the heading of a section
inside a limit is not a key of the step, 223 -/
def limitKeys (step : Obj) : Except Err (List Str) :=
  mapE (fun h => match h with | [k] => .ok k | _ => .error .keyError)
    ((headings step).filter (fun h => kLimit.isPrefixOf (h.head?.getD [])))

/-- the loop over the limits of a step, 222-232.  `step` is the step before the loop: the code
holds a live reference, but only limits already passed have changed. -/
def setLimits (var : Str) (sign value : Val) (x : Str) (step : Obj) : Obj → List Str → Except Err Obj
  | o, [] => .ok o
  | o, l :: ls =>
    match step.find l with
    | some (.obj d) =>
      match d.find kStepLimit with
      | none => .error .keyError
      | some flag =>
        if flag = .str ['1'] then
          match d.find kLeft with
          | none => .error .keyError
          | some left =>
            if left = .str var then do
              let o1 ← setP o [kSchedule, x, l, kSign] sign
              let o2 ← setP o1 [kSchedule, x, l, kRight] value
              setLimits var sign value x step o2 ls
            else setLimits var sign value x step o ls
        else setLimits var sign value x step o ls
    | _ => .error .typeError

/-- the loop over the steps, 212-232 -/
def setLimitSteps (label var : Str) (sign value : Val) : Obj → List Str → Except Err Obj
  | o, [] => .ok o
  | o, x :: xs =>
    if hasLabel label o x then
      match getP o [kSchedule, x] with
      | some (.obj step) => do
        let ls ← limitKeys step
        let o' ← setLimits var sign value x step o ls
        setLimitSteps label var sign value o' xs
      | _ => .error .attributeError
    else setLimitSteps label var sign value o xs

/-- `set_labelled_limits`, 192-233 -/
def setLabelledLimits (o : Obj) (label var : Str) (sign value : Val) : Except Err Obj := do
  setLimitSteps label var sign value o (← stepKeys o)

end Beep.Arbin
