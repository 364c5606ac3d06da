import Mathlib.Data.List.Forall2
import Verif.Model.MaccorToBiologic
/-
Specification vocabulary for the conversion of Maccor procedures to Biologic techniques.
-/
namespace Beep.Spec.MtB
open Beep Beep.MtB

/-- the number in the value field of an end entry -/
def number : Val → Option Rat
  | .num d => some d.value
  | _ => none

/-- the end entry compares the voltage (current) with a value at or beyond the configured
maximum (minimum) voltage, or strictly beyond the configured maximum (minimum) current, so
the configured safety limit makes it unreachable -/
def Unreachable (c : Config) (e : EndEntry) : Prop :=
  ∃ v, number e.value = some v ∧
    ((e.endType = "Voltage" ∧ e.oper = ">=" ∧ ∃ m, c.maxV = some m ∧ m ≤ v) ∨
     (e.endType = "Voltage" ∧ e.oper = "<=" ∧ ∃ m, c.minV = some m ∧ v ≤ m) ∨
     (e.endType = "Current" ∧ e.oper = ">=" ∧ ∃ m, c.maxI = some m ∧ m < v) ∨
     (e.endType = "Current" ∧ e.oper = "<=" ∧ ∃ m, c.minI = some m ∧ v < m))

/-- voltage and current ends carry numbers -/
def WellTyped (e : EndEntry) : Prop :=
  e.endType = "Voltage" ∨ e.endType = "Current" → ∃ v, number e.value = some v

/-- the other controlled quantity -/
def other (mode : String) : String := if mode = "Current" then "Voltage" else "Current"

/-- `Tiling pos num steps ts`: the techniques `ts` are consecutive segments of `steps`, whose
first element is step `pos` of the procedure and whose first technique has number `num`.  A
plain technique has exactly the steps of its segment; a looping technique has the steps
between a `Do 1` and a `Loop 1` marker and takes two technique numbers. -/
inductive Tiling : Nat → Nat → List Step → List Technique → Prop where
  | done (pos num : Nat) : Tiling pos num [] []
  | plain (pos num : Nat) (t : Technique) (rest : List Step) (ts : List Technique)
      (hl : t.loops = false) (ho : t.offset = pos) (hn : t.num = num) (hne : t.steps ≠ [])
      (h : Tiling (pos + t.steps.length) (num + 1) rest ts) :
      Tiling pos num (t.steps ++ rest) (t :: ts)
  | loop (pos num : Nat) (t : Technique) (d l : Step) (rest : List Step) (ts : List Technique)
      (hl : t.loops = true) (ho : t.offset = pos + 1) (hn : t.num = num)
      (hd : d.stepType = "Do 1") (hc : l.stepType = "Loop 1") (hk : loopCount l = .ok t.numLoops)
      (h : Tiling (pos + t.steps.length + 2) (num + 2) rest ts) :
      Tiling pos num (d :: (t.steps ++ l :: rest)) (t :: ts)

/-- the loop markers of a step list, in order -/
def marks (steps : List Step) : List String :=
  (steps.map Step.stepType).filter (fun t => t == "Do 1" || t == "Do 2" || t == "Loop 1" || t == "Loop 2")

/-- `ms` is open, close, open, close, ... with the given markers; the flag says whether a loop
is open at the start -/
def Alternates (o c : String) : Bool → List String → Prop
  | _, [] => True
  | false, m :: ms => m = o ∧ Alternates o c true ms
  | true, m :: ms => m = c ∧ Alternates o c false ms

/-- how many sequences a step becomes: none for a `Do` or `AdvCycle` marker, two for a step
with a limit (it is split), one otherwise -/
def seqCount (s : Step) : Nat :=
  if s.stepType = "Do 1" ∨ s.stepType = "Do 2" ∨ s.stepType = "AdvCycle" then 0
  else if s.stepType = "Loop 1" ∨ s.stepType = "Loop 2" then 1
  else if s.limits = none then 1 else 2

/-- the number of sequences of the steps before position `k`: the first sequence of the step at
position `k` (of a marker: of the first step after it that has one) -/
def firstSeq (steps : List Step) (k : Nat) : Nat := ((steps.take k).map seqCount).sum

/-- a jump to step number `n` goes to sequence `g`, in a technique whose first step has number
`off + 1`: 9999 stands for the end of the protocol -/
def GoesTo (steps : List Step) (off endStep n g : Int) : Prop :=
  (n = endStep ∧ g = 9999) ∨ ∃ j : Nat, j ≤ steps.length ∧ n = off + j + 1 ∧ g = firstSeq steps j

/-- the limits of sequence number `ns` implement the end entries `ends` of the step at position
`k` -/
def Implements (steps : List Step) (off endStep : Int) (k : Nat) (lims : List Lim) (ends : List EndEntry) : Prop :=
  List.Forall₂ (fun l e => GoesTo steps off endStep e.step l.goto ∧
    (l.jumps = true ↔ e.step ≠ off + k + 2)) lims ends

/-- `o` is the loop opened last before `k`: a `Do` marker with no other loop marker in between -/
def OpenAt (steps : List Step) (o k : Nat) : Prop :=
  o < k ∧ (∃ d, steps[o]? = some d ∧ (d.stepType = "Do 1" ∨ d.stepType = "Do 2")) ∧
  ∀ (j : Nat) s, o < j → j < k → steps[j]? = some s → ¬ (s.stepType = "Do 1" ∨ s.stepType = "Do 2" ∨
    s.stepType = "Loop 1" ∨ s.stepType = "Loop 2")

/-- the sequences `seqs` contain, at the right place, what the step `s` at position `k` asks
for -/
def BlockAt (steps : List Step) (off endStep : Int) (seqs : List Seq) (k : Nat) (s : Step) : Prop :=
  if s.stepType = "Do 1" ∨ s.stepType = "Do 2" ∨ s.stepType = "AdvCycle" then True
  else if s.stepType = "Loop 1" ∨ s.stepType = "Loop 2" then
    ∃ q o n, seqs[firstSeq steps k]? = some q ∧ q.ctrlType = "Loop" ∧ q.lims = [] ∧ OpenAt steps o k ∧
      q.loopTo = firstSeq steps o ∧ loopCount s = .ok n ∧ q.repeats = max (n - 1) 0
  else if s.limits = none then
    ∃ q, seqs[firstSeq steps k]? = some q ∧ q.ctrlType ≠ "Loop" ∧
      Implements steps off endStep k q.lims s.ends.toList
  else
    ∃ q1 q2 l, seqs[firstSeq steps k]? = some q1 ∧ seqs[firstSeq steps k + 1]? = some q2 ∧
      q1.ctrlType ≠ "Loop" ∧ q2.ctrlType ≠ "Loop" ∧
      q1.lims = [l] ∧ l.jumps = false ∧ l.goto = firstSeq steps k + 1 ∧
      Implements steps off endStep k q2.lims s.ends.toList

end Beep.Spec.MtB
