import Verif.Spec.MaccorToArbin
import Verif.Model.Pandas
/-
Specification vocabulary: how a Maccor procedure and an Arbin schedule run.  Both are step
programs: at every moment one step is active, counters count the rounds of the loops, and a step
is left when one of its conditions holds for what the cycler measures.
-/
namespace Beep.Spec.ArbinRun
open Beep Beep.MtA

/-- where a test stands: the active step, the loop counters and the cycle number -/
structure State where
  pc : Nat
  count : Nat → Nat
  cycle : Nat

/-- what the cycler measures in a step: the voltage, the current (positive into the cell) and the
seconds since the step began -/
structure Measured where
  voltage : Rat
  current : Rat
  time : Rat

/-- a counter gets a new value -/
def update (f : Nat → Nat) (n v : Nat) : Nat → Nat := fun m => if m = n then v else f m

/-- meaning of the operators of a Maccor procedure, which are written with a space -/
def holds (oper : String) (x r : Rat) : Prop :=
  if oper = "<= " then x ≤ r
  else if oper = ">= " then r ≤ x
  else if oper = "< " then x < r
  else if oper = "> " then r < x
  else if oper = "= " then x = r
  else False

/-- the operators of a Maccor procedure -/
def operators : List String := ["<= ", ">= ", "< ", "> ", "= "]

/-- magnitude of a current -/
def magnitude (x : Rat) : Rat := if x < 0 then -x else x

/-- the end entries of a step -/
def endsOf : Entries End → List End
  | .absent => []
  | .single e => [e]
  | .many l => l

/-- a step that acts on the cell, as opposed to one that controls the flow of the test -/
def Acts (t : SType) : Prop := (∀ n, t ≠ .doo n) ∧ (∀ n, t ≠ .loop n) ∧ t ≠ .adv ∧ t ≠ .ende

/-- an end entry of a Maccor step holds.  A Maccor shows the magnitude of the current, and a step
time is over when more than that time has passed. -/
def Ended (m : Measured) (e : End) : Prop :=
  (e.endType = "Voltage" ∧ ∃ v, e.value = .num v ∧ holds e.oper m.voltage v) ∨
  (e.endType = "Current" ∧ ∃ v, e.value = .num v ∧ holds e.oper (magnitude m.current) v) ∨
  (e.endType = "StepTime" ∧ ∃ t, e.value = .time t ∧ Spec.MtA.seconds t < m.time)

/-- a move of a Maccor procedure.  The field "Step" of an end entry is the number of the step to go
to, counted from one. -/
inductive Moves (steps : List Step) (m : Measured) : State → State → Prop
  /-- a Do step starts its counter and goes on -/
  | opens (s : State) (t : Step) (n : Nat) (h : steps[s.pc]? = some t) (ht : t.type = .doo n) :
      Moves steps m s ⟨s.pc + 1, update s.count n 0, s.cycle⟩
  /-- an AdvCycle step advances the cycle number and goes on -/
  | advances (s : State) (t : Step) (h : steps[s.pc]? = some t) (ht : t.type = .adv) :
      Moves steps m s ⟨s.pc + 1, s.count, s.cycle + 1⟩
  /-- a Loop step counts the round; unless its end entry holds for the counter it goes back to the
  step after its Do -/
  | repeats (s : State) (t : Step) (n d : Nat) (e : End) (v : Rat) (ps : List (Nat × Nat))
      (h : steps[s.pc]? = some t) (ht : t.type = .loop n) (he : t.ends = .single e) (hv : e.value = .num v)
      (hn : ¬ holds e.oper ((s.count n + 1 : Nat) : Rat) v)
      (hp : Spec.MtA.pairs [] 0 steps = some ps) (hd : (s.pc, d) ∈ ps) :
      Moves steps m s ⟨d + 1, update s.count n (s.count n + 1), s.cycle⟩
  /-- and if it holds, to the step of the entry -/
  | leaves (s : State) (t : Step) (n : Nat) (e : End) (v : Rat)
      (h : steps[s.pc]? = some t) (ht : t.type = .loop n) (he : t.ends = .single e) (hv : e.value = .num v)
      (hn : holds e.oper ((s.count n + 1 : Nat) : Rat) v) :
      Moves steps m s ⟨e.step - 1, update s.count n (s.count n + 1), s.cycle⟩
  /-- a step that acts on the cell is left to the step of an end entry that holds -/
  | acts (s : State) (t : Step) (e : End) (h : steps[s.pc]? = some t) (ht : Acts t.type) (he : e ∈ endsOf t.ends)
      (hm : Ended m e) :
      Moves steps m s ⟨e.step - 1, s.count, s.cycle⟩
  /-- the End step finishes the test -/
  | ends (s : State) (t : Step) (h : steps[s.pc]? = some t) (ht : t.type = .ende) :
      Moves steps m s ⟨steps.length, s.count, s.cycle⟩

/-- a bit of a control value -/
def bit (x : Option Rat) (k : Nat) : Bool := match x with
  | some q => q.num.toNat.testBit k
  | none => false

/-- what the control of an Arbin step does to the counters, according to the table of control
values in maccor_to_arbin.py:163-186: bit `n + 15` of the control value resets counter `n`, bit
`n` of the first extension advances counter `n`, and its bit 0 advances the cycle number -/
def after (c : Ctrl) (s : State) : State :=
  if c.type = "Set Variable(s)" then
    { s with
      count := fun n => if 1 ≤ n ∧ bit c.value (n + 15) then 0
        else if 1 ≤ n ∧ bit c.ext1 n then s.count n + 1 else s.count n
      cycle := if bit c.ext1 0 then s.cycle + 1 else s.cycle }
  else s

/-- a limit of an Arbin step holds.  The current of the constant voltage stage is the current. -/
def Reached (m : Measured) (s : State) (l : Limit) : Prop :=
  (l.left = "PV_CHAN_Voltage" ∧ Spec.MtA.sat l.sign m.voltage l.right) ∨
  ((l.left = "PV_CHAN_Current" ∨ l.left = "PV_CHAN_CV_Stage_Current") ∧ Spec.MtA.sat l.sign m.current l.right) ∨
  (l.left = "PV_CHAN_Step_Time" ∧ Spec.MtA.sat l.sign m.time l.right) ∨
  (∃ n : Nat, l.left = "TC_Counter" ++ toString n ∧ Spec.MtA.sat l.sign (s.count n : Rat) l.right)

/-- the step a limit goes to: the following one, or one with that label -/
def Target (as : List AStep) (pc : Nat) (goto : String) (q : Nat) : Prop :=
  if goto = "Next Step" then q = pc + 1 else ∃ b : AStep, as[q]? = some b ∧ b.label = goto

/-- a move of an Arbin schedule: the control of the active step acts on the counters, and one of
the announced limits that end the step holds -/
def Runs (as : List AStep) (m : Measured) (s s' : State) : Prop :=
  ∃ (a : AStep) (k : Nat) (l : Limit), as[s.pc]? = some a ∧ (k, l) ∈ a.limits ∧ k < a.limitNum ∧
    l.stepLimit = true ∧ Reached m (after a.ctrl s) l ∧ Target as s.pc l.goto s'.pc ∧
    s'.count = (after a.ctrl s).count ∧ s'.cycle = (after a.ctrl s).cycle

/-- a sequence of moves under a sequence of measurements, with the states passed -/
inductive Path (R : Measured → State → State → Prop) : State → List (Measured × State) → Prop
  | nil (s : State) : Path R s []
  | cons (s s' : State) (m : Measured) (l : List (Measured × State)) (h : R m s s') (hl : Path R s' l) :
      Path R s ((m, s') :: l)

/-- the procedures of the claim: a Do, an AdvCycle and the End have no end entries, the End is the
last step, a Loop has one end entry, which ends it when the counter is equal to a number or not
below it, and every other step has end entries; a discharge is not ended by a large
current; times have at most six digits behind the point -/
structure Plain (steps : List Step) : Prop where
  flow : ∀ t ∈ steps, ¬ Acts t.type → t.mode = .unset
  free : ∀ t ∈ steps, ¬ Acts t.type → (∀ n, t.type ≠ .loop n) → t.ends = .absent
  last : ∀ (i : Nat) (t : Step), steps[i]? = some t → t.type = .ende → i + 1 = steps.length
  loop : ∀ t ∈ steps, ∀ n, t.type = .loop n → ∃ e v, t.ends = .single e ∧ e.endType = "Loop Cnt" ∧
    e.step ≠ 0 ∧ (e.oper = "= " ∨ e.oper = ">= ") ∧ e.value = .num v
  acts : ∀ t ∈ steps, Acts t.type → endsOf t.ends ≠ [] ∧ ∀ e ∈ endsOf t.ends, e.step ≠ 0 ∧ e.oper ∈ operators ∧
    (e.endType = "Current" → t.type = .dischrge → e.oper = "<= " ∨ e.oper = "< " ∨ e.oper = "= ") ∧
    ∀ tt, e.value = .time tt → tt.frac.length ≤ 6

/-- a measurement that fits the active step: time has passed, and the current of a charge or of a
discharge goes into or out of the cell -/
def Fits (steps : List Step) (s : State) (m : Measured) : Prop :=
  0 < m.time ∧ ∀ t, steps[s.pc]? = some t → (t.type = .charge → 0 ≤ m.current) ∧ (t.type = .dischrge → m.current ≤ 0)

/-- a loop whose end entry asks for equality has not counted past its number -/
def Within (steps : List Step) (s : State) : Prop :=
  ∀ t n e v, steps[s.pc]? = some t → t.type = .loop n → t.ends = .single e → e.value = .num v →
    e.oper = "= " → ((s.count n + 1 : Nat) : Rat) ≤ v

/-- no end entry leads into a loop from outside: a target behind the Do and not behind the Loop
belongs to a step between the two -/
def Enclosed (steps : List Step) (ps : List (Nat × Nat)) : Prop :=
  ∀ (i : Nat) (t : Step) (e : End), steps[i]? = some t → e ∈ endsOf t.ends → ∀ p ∈ ps,
    p.2 < e.step - 1 → e.step - 1 ≤ p.1 → p.2 < i ∧ i < p.1

/-- the number of rounds of a loop is a positive whole number -/
def Whole (steps : List Step) : Prop :=
  ∀ t ∈ steps, ∀ n e v, t.type = .loop n → t.ends = .single e → e.value = .num v → ∃ k : Nat, 1 ≤ k ∧ v = (k : Rat)

/-- the report entries of a step -/
def reportsOf : Entries Report → List Report
  | .absent => []
  | .single r => [r]
  | .many l => l

/-- the report types that are converted -/
def reportTypes : List String := ["Voltage", "Current", "StepTime"]

/-- a limit records, without ending the step, when the quantity of the report has changed by more
than the value of the report.  Times are compared in seconds, with at most six digits behind the
point. -/
def Logs (l : Limit) (r : Report) : Prop :=
  l.stepLimit = false ∧ l.log = true ∧ l.sign = ">" ∧
  ((r.reportType = "Voltage" ∧ l.left = "DV_Voltage" ∧ r.value = .num l.right) ∨
   (r.reportType = "Current" ∧ l.left = "DV_Current" ∧ r.value = .num l.right) ∨
   (r.reportType = "StepTime" ∧ l.left = "DV_Time" ∧ ∃ t, r.value = .time t ∧
     (t.frac.length ≤ 6 → l.right = Spec.MtA.seconds t)))

end Beep.Spec.ArbinRun
