import Verif.Spec.MaccorToBiologic
import Verif.Spec.Units
/-
Specification vocabulary for what the sequences of a converted technique do, and for which
techniques can be converted.
-/
namespace Beep.Spec.MtB
open Beep Beep.MtB Beep.Units Beep.Spec.Units

/-- a step that opens or closes a loop -/
def LoopMark (s : Step) : Prop :=
  s.stepType = "Do 1" ∨ s.stepType = "Do 2" ∨ s.stepType = "Loop 1" ∨ s.stepType = "Loop 2"

/-- the pair of number and unit is the value of the field: exactly, for voltages with at most six
and currents with at most fifteen significant decimals, and for times of whole hours and
minutes with at most three decimals of the seconds -/
def SameQuantity (kind : String) (v : Val) (p : Rat × String) : Prop :=
  (∀ d, v = .num d → kind = "Voltage" → d.sigFigs ≤ 6 → denotes p d.value) ∧
  (∀ d, v = .num d → kind = "Current" → d.sigFigs ≤ 15 → denotes p d.value) ∧
  (∀ (h m : Int) (s : Rat), v = .time ⟨h, m, s⟩ → kind = "StepTime" → Decimals s 3 → denotes p (seconds ⟨h, m, s⟩))

/-- the limit `l` of a sequence ends it on the same event as the end entry `e` of a step -/
def Watches (e : EndEntry) (l : Lim) : Prop :=
  SameQuantity e.endType e.value (l.value, l.unit) ∧
  ((e.endType = "StepTime" ∧ e.oper = "=" ∧ l.type = "Time" ∧ l.comp = ">") ∨
   (((e.endType = "Voltage" ∧ l.type = "Ecell") ∨ (e.endType = "Current" ∧ l.type = "|I|")) ∧
    ((e.oper = ">=" ∧ l.comp = ">") ∨ (e.oper = "<=" ∧ l.comp = "<"))))

/-- the record rule `c` of a sequence records on the same change as the report entry `r` -/
def Records (r : Report) (c : Rec) : Prop :=
  SameQuantity r.reportType r.value (c.value, c.unit) ∧
  ((r.reportType = "StepTime" ∧ c.type = "Time") ∨ (r.reportType = "Voltage" ∧ c.type = "Ecell") ∨
   (r.reportType = "Current" ∧ c.type = "I"))

/-- the sequence `q` rests, or holds the current or voltage `v` in the direction of step `s` -/
def Applies (s : Step) (mode : String) (v : Option Val) (q : Seq) : Prop :=
  (s.stepType = "Rest" ∧ q.ctrlType = "Rest" ∧ q.value = none) ∨
  ((s.stepType = "Charge" ∨ s.stepType = "Dischrge") ∧ (q.charge = true ↔ s.stepType = "Charge") ∧
   ((mode = "Current" ∧ q.ctrlType = "CC") ∨ (mode = "Voltage" ∧ q.ctrlType = "CV")) ∧
   ∃ x p, v = some x ∧ q.value = some p ∧ SameQuantity mode x p)

/-- the limit of a step with limits: the voltage of a step that controls the current and the
current of a step that controls the voltage -/
def limitOf (s : Step) (lims : Limits) : Option Val :=
  if s.stepMode = "Current" then lims.voltage else lims.current

/-- the sequences of the measurement step `s` at position `k` -/
def Performs (steps : List Step) (seqs : List Seq) (k : Nat) (s : Step) : Prop :=
  match s.limits with
  | none => ∃ q, seqs[firstSeq steps k]? = some q ∧ Applies s s.stepMode s.stepValue q ∧
      List.Forall₂ Watches s.ends.toList q.lims ∧ List.Forall₂ Records s.reports.toList q.recs
  | some lims => ∃ q1 q2 v l, limitOf s lims = some v ∧
      seqs[firstSeq steps k]? = some q1 ∧ seqs[firstSeq steps k + 1]? = some q2 ∧
      Applies s s.stepMode s.stepValue q1 ∧ Applies s (other s.stepMode) (some v) q2 ∧
      q1.lims = [l] ∧ l.type = (if s.stepMode = "Current" then "Ecell" else "|I|") ∧
      l.comp = (if s.stepType = "Charge" then ">" else "<") ∧
      SameQuantity (other s.stepMode) v (l.value, l.unit) ∧
      List.Forall₂ Watches s.ends.toList q2.lims ∧
      List.Forall₂ Records s.reports.toList q1.recs ∧ List.Forall₂ Records s.reports.toList q2.recs

/-- an end entry that Biologic sequences can express -/
def EndOk (e : EndEntry) : Prop :=
  (e.endType = "StepTime" ∧ e.oper = "=" ∧ ∃ t, e.value = .time t) ∨
  ((e.endType = "Voltage" ∨ e.endType = "Current") ∧ (e.oper = ">=" ∨ e.oper = "<=") ∧ ∃ d, e.value = .num d)

/-- a report entry that Biologic sequences can express -/
def ReportOk (r : Report) : Prop :=
  (r.reportType = "StepTime" ∧ ∃ t, r.value = .time t) ∨
  ((r.reportType = "Voltage" ∨ r.reportType = "Current") ∧ ∃ d, r.value = .num d)

/-- a rest, or a charge or discharge with a current or voltage -/
def ControlOk (s : Step) : Prop :=
  s.stepType = "Rest" ∨ ((s.stepType = "Charge" ∨ s.stepType = "Dischrge") ∧
    (s.stepMode = "Current" ∨ s.stepMode = "Voltage") ∧ ∃ d, s.stepValue = some (.num d))

/-- step number `n` does not lie before the technique or before a loop marker that precedes
position `k` -/
def Behind (steps : List Step) (off : Int) (k : Nat) (n : Int) : Prop :=
  off ≤ n ∧ ∀ (m : Nat) s, m < k → steps[m]? = some s → LoopMark s → off + m + 1 < n

/-- the step at position `k` may end in step number `n`: the next step, the end of the procedure,
or a step of the technique that is not before the last loop marker -/
def Allowed (steps : List Step) (off endStep : Int) (k : Nat) (n : Int) : Prop :=
  Behind steps off k n ∧ (n = off + k + 2 ∨ n = endStep ∨ ∃ j : Nat, j < steps.length ∧ n = off + j + 1)

/-- the step at position `k` can be converted -/
def StepOk (steps : List Step) (off endStep : Int) (k : Nat) (s : Step) : Prop :=
  if s.stepType = "Do 1" ∨ s.stepType = "Do 2" ∨ s.stepType = "AdvCycle" then True
  else if s.stepType = "Loop 1" ∨ s.stepType = "Loop 2" then
    (∃ o, OpenAt steps o k) ∧ ∃ e d, s.ends = .single e ∧ e.value = .num d ∧ d.frac = [] ∧ d.exp = 0
  else
    ControlOk s ∧ s.ends.toList.length ≤ 3 ∧ s.reports.toList.length ≤ 3 ∧
    (∀ e ∈ s.ends.toList, EndOk e ∧ Allowed steps off endStep k e.step) ∧
    (∀ r ∈ s.reports.toList, ReportOk r) ∧
    ∀ lims, s.limits = some lims → s.stepType ≠ "Rest" ∧ ∃ d, limitOf s lims = some (.num d)

end Beep.Spec.MtB
