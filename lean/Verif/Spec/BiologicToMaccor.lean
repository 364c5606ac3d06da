import Mathlib.Data.List.Forall2
import Verif.Model.BiologicToMaccor
/-
Specification vocabulary for the conversion of Biologic sequences to Maccor steps: where the
steps of a sequence are expected.
-/
namespace Beep.Spec.BtM
open Beep Beep.BtM

/-- a loop sequence that does not repeat: it does nothing -/
def blank (q : BSeq) : Bool := q.ctrlType == "Loop" && q.repeats == 0

/-- a loop that goes back to a blank loop right before it: an explicit cycle advance -/
def advance (seqs : List BSeq) (i : Nat) (q : BSeq) : Bool :=
  q.ctrlType == "Loop" && !blank q && q.loopTo + 1 == i &&
    match seqs[q.loopTo]? with
    | none => false
    | some b => blank b

/-- sequence `i` is where some executed loop starts -/
def starts (seqs : List BSeq) (i : Nat) : Bool :=
  seqs.any (fun q => q.ctrlType == "Loop" && !blank q && q.loopTo == i)

/-- how many steps sequence `i` becomes: none for a blank loop, AdvCycle for a cycle advance,
AdvCycle and Loop for a loop, otherwise one step, preceded by Do at the start of a loop -/
def width (seqs : List BSeq) (i : Nat) : Nat :=
  match seqs[i]? with
  | none => 0
  | some q =>
    if blank q then 0
    else if advance seqs i q then 1
    else if q.ctrlType = "Loop" then 2
    else if starts seqs i then 2 else 1

/-- number of steps of the sequences before `i` -/
def before (seqs : List BSeq) : Nat → Nat
  | 0 => 0
  | i + 1 => before seqs i + width seqs i

/-- number of the step a controlled sequence becomes -/
def stepNo (seqs : List BSeq) (i : Nat) : Nat := before seqs i + (if starts seqs i then 1 else 0) + 1

/-- the step at a given step number -/
def at? (steps : List MStep) (n : Nat) : Option MStep := if n = 0 then none else steps[n - 1]?

/-- types of a controlled step -/
def controlled : List String := ["Charge ", "Dischrge ", "  Rest  "]

/-- the step with this number stands right behind a Do step -/
def BehindDo (seqs : List BSeq) (n : Nat) : Prop :=
  ∃ s q, seqs[s]? = some q ∧ blank q = false ∧ starts seqs s = true ∧ n = stepNo seqs s

/-- the end entry `e` goes where limit `l` of sequence `i` says, for limits that end the protocol,
go on, or jump back.  A forward jump goes to the step of its sequence, or to the step before that one if the
number of the sequence happens to be the number of a step behind a Do step. -/
def Follows (seqs : List BSeq) (n i : Nat) (l : BLim) (e : MEnd) : Prop :=
  (l.action = "End" → e.step = n) ∧
  (l.action = "Next sequence" → e.step = stepNo seqs i + 1) ∧
  (l.action = "Goto sequence" → l.goto ≤ i → e.step = stepNo seqs l.goto) ∧
  (l.action = "Goto sequence" → i < l.goto → ¬ BehindDo seqs l.goto → e.step = stepNo seqs l.goto) ∧
  (l.action = "Goto sequence" → i < l.goto → BehindDo seqs l.goto → e.step = stepNo seqs l.goto - 1) ∧
  (l.action = "Goto sequence" → ∃ q, seqs[l.goto]? = some q ∧ blank q = false) ∧
  (l.action = "End" ∨ l.action = "Next sequence" ∨ l.action = "Goto sequence") ∧
  1 ≤ e.step ∧ e.step ≤ n

/-- the steps of sequence `i` are in place -/
def Placed (seqs : List BSeq) (steps : List MStep) (i : Nat) (q : BSeq) : Prop :=
  if blank q then True
  else if advance seqs i q then (at? steps (before seqs i + 1)).map MStep.stepType = some "AdvCycle"
  else if q.ctrlType = "Loop" then
    (at? steps (before seqs i + 1)).map MStep.stepType = some "AdvCycle" ∧
    ∃ l e, at? steps (before seqs i + 2) = some l ∧ l.stepType = " Loop 1 " ∧ l.ends = [e] ∧
      e.step = before seqs q.loopTo + 1 ∧ (at? steps e.step).map MStep.stepType = some "  Do 1  "
  else
    (starts seqs i = true → (at? steps (before seqs i + 1)).map MStep.stepType = some "  Do 1  ") ∧
    ∃ s, at? steps (stepNo seqs i) = some s ∧ s.stepType ∈ controlled ∧
      List.Forall₂ (Follows seqs steps.length i) q.lims s.ends

end Beep.Spec.BtM
