import Verif.Model.MaccorProcedure
import Mathlib.Data.List.Forall2
/-
Vocabulary for the properties of Maccor procedures (C36, C37, C40, C61, C66).
-/
namespace Beep.Spec.MaccorProcedure
open Beep MaccorProcedure

/-- the digits `s` are the decimal notation of `n` (leading zeros allowed) -/
def Decimal (s : Str) (n : Nat) : Prop :=
  s ≠ [] ∧ (∀ c ∈ s, '0' ≤ c ∧ c ≤ '9') ∧ n = s.foldl (fun a c => 10 * a + (c.toNat - '0'.toNat)) 0

/-- the text `HH:MM:SS` means `n` seconds: any number of hours, minutes and seconds below 60 -/
def Denotes (s : Str) (n : Nat) : Prop :=
  ∃ (h m c : Str) (H M C : Nat), s = h ++ ':' :: m ++ ':' :: c ∧
    Decimal h H ∧ Decimal m M ∧ Decimal c C ∧ M < 60 ∧ C < 60 ∧ n = 3600 * H + 60 * M + C

/-- end entry `k` of step `i` is a step time of `n` seconds -/
def EndTime (p : List Step) (i k n : Nat) : Prop :=
  ∃ (s : Step) (es : List EndE) (e : EndE) (txt : Str), p[i]? = some s ∧ s.ends = some (.many es) ∧
    es[k]? = some e ∧ e.endType = "StepTime".toList ∧ e.value = .text txt ∧ Denotes txt n

/-- step `i` ends after the requested `x` seconds, to the nearest second -/
def Lasts (p : List Step) (i : Nat) (x : Rat) : Prop :=
  ∃ n : Nat, EndTime p i 0 n ∧ -(1 / 2) ≤ x - (n : Rat) ∧ x - (n : Rat) ≤ 1 / 2

/-- step `i` ends after the requested `x` seconds, less the fraction of a second -/
def LastsDown (p : List Step) (i : Nat) (x : Rat) : Prop :=
  ∃ n : Nat, EndTime p i 0 n ∧ (n : Rat) ≤ x ∧ x < (n : Rat) + 1

/-- `s'` is `s` with blanks around it, `w` characters wide or as wide as `s` was -/
def Pads (w : Nat) (s s' : Str) : Prop :=
  (∃ a b : Nat, s' = List.replicate a ' ' ++ s ++ List.replicate b ' ') ∧
  s'.length = max w s.length

/-- a formatted end entry -/
def FormattedEnd (e e' : EndE) : Prop :=
  Pads 8 e.endType e'.endType ∧
  (match e.oper with
    | none => e'.oper = none
    | some o => ∃ o', e'.oper = some o' ∧ Pads 3 o o') ∧
  (match e.special with
    | none => e'.special = some [' ']
    | some x => e'.special = some x) ∧
  e'.step = e.step ∧ e'.value = e.value

/-- a formatted report entry -/
def FormattedRep (r r' : Rep) : Prop := Pads 8 r.repType r'.repType ∧ r'.value = r.value

/-- formatted end entries, keeping number, order and kind -/
def FormattedEnds : Option Ends → Option Ends → Prop
  | none, none => True
  | some (.one e), some (.one e') => FormattedEnd e e'
  | some (.many es), some (.many es') => List.Forall₂ FormattedEnd es es'
  | _, _ => False

/-- formatted report entries -/
def FormattedReps : Option Reps → Option Reps → Prop
  | none, none => True
  | some (.one r), some (.one r') => FormattedRep r r'
  | some (.many rs), some (.many rs') => List.Forall₂ FormattedRep rs rs'
  | _, _ => False

/-- a formatted step; an empty mode becomes blanks -/
def FormattedStep (s s' : Step) : Prop :=
  Pads 8 s.stepType s'.stepType ∧
  (∃ m, s'.stepMode = some m ∧ Pads 8 (s.stepMode.getD []) m) ∧
  FormattedEnds s.ends s'.ends ∧ FormattedReps s.reports s'.reports ∧
  s'.stepValue = s.stepValue ∧ s'.limits = s.limits ∧ s'.other = s.other

/-- the end entry is a voltage condition `op` leading to step `key` -/
def Leads (key op : Str) (e : EndE) : Prop :=
  e.step = key ∧ e.endType = "Voltage".toList ∧ e.oper = some op

/-- the two end entries differ at most in their value and the step they lead to -/
def SameCondition (e e' : EndE) : Prop :=
  e'.special = e.special ∧ e'.endType = e.endType ∧ e'.oper = e.oper

/-- what `set_skip_to_end_diagnostic` has to do to one end entry -/
def Skipped (maxV minV : Rat) (key : Str) (goto : Str) (e e' : EndE) : Prop :=
  (Leads key ">=".toList e → SameCondition e e' ∧ e'.value = .num maxV ∧ e'.step = goto) ∧
  (Leads key "<=".toList e → SameCondition e e' ∧ e'.value = .num minV ∧ e'.step = goto) ∧
  (¬ Leads key ">=".toList e → ¬ Leads key "<=".toList e → e' = e)

/-- all end entries of a step -/
def entries : Option Ends → List EndE
  | none => []
  | some (.one e) => [e]
  | some (.many es) => es

/-- the two steps differ at most in their end entries -/
def SameButEnds (s s' : Step) : Prop :=
  s'.stepType = s.stepType ∧ s'.stepMode = s.stepMode ∧ s'.stepValue = s.stepValue ∧
  s'.limits = s.limits ∧ s'.reports = s.reports ∧ s'.other = s.other

/-- two end entries that differ at most in their value -/
def SameEnd (e e' : EndE) : Prop :=
  e'.special = e.special ∧ e'.endType = e.endType ∧ e'.oper = e.oper ∧ e'.step = e.step

/-- the end entries agree in number, kind and everything but their values -/
def SameEnds : Option Ends → Option Ends → Prop
  | none, none => True
  | some (.one e), some (.one e') => SameEnd e e'
  | some (.many es), some (.many es') => List.Forall₂ SameEnd es es'
  | _, _ => False

/-- two steps that differ at most in the step value, the values of limits and the values of end
entries: the structure of the procedure is kept -/
def SameStructure (s s' : Step) : Prop :=
  s'.stepType = s.stepType ∧ s'.stepMode = s.stepMode ∧ s'.reports = s.reports ∧
  s'.other = s.other ∧ SameEnds s.ends s'.ends ∧ s'.limits.isSome = s.limits.isSome

/-- `p'` is `p` with only the steps satisfying `touched` changed, and no step restructured -/
def OnlyTouches (touched : Nat → Prop) (p p' : List Step) : Prop :=
  List.Forall₂ SameStructure p p' ∧ ∀ j, ¬ touched j → p'[j]? = p[j]?

end Beep.Spec.MaccorProcedure
