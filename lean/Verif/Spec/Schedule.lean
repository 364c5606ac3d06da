import Verif.Spec.Dash
/-
Vocabulary for the labelled edits of a schedule.
-/
namespace Beep.Spec.Schedule
open Beep Beep.Dash Beep.Spec.Dash

/-- the steps of the schedule with this label, in order -/
def labelled (o : Obj) (label : Str) : List Str :=
  match o.find "Schedule".toList with
  | some (.obj s) => s.keys.filter (fun x => getP o ["Schedule".toList, x, "m_szLabel".toList] = some (.str label))
  | _ => []

/-- this limit of this step stops the step and compares this variable -/
def Stops (o : Obj) (var x l : Str) : Prop :=
  getP o ["Schedule".toList, x, l, "m_bStepLimit".toList] = some (.str ['1']) ∧
  getP o ["Schedule".toList, x, l, "Equation0_szLeft".toList] = some (.str var)

/-- a section of a step whose name starts with "Limit" -/
def IsLimit (o : Obj) (x l : Str) : Prop :=
  "Limit".toList <+: l ∧ ∃ d, getP o ["Schedule".toList, x, l] = some (.obj d)

/-- after the edit, exactly the given entries are changed: each target path has its value, and every
path that does not lead through a target is as before -/
def Edited (o o' : Obj) (targets : List (List Str × Val)) : Prop :=
  (∀ t ∈ targets, getP o' t.1 = some t.2) ∧
  ∀ q, (∀ t ∈ targets, Apart t.1 q) → getP o' q = getP o q

end Beep.Spec.Schedule
