import Verif.Spec.BiologicToMaccor
/-
Specification vocabulary for C163: which sequences of a Modulo Bat technique are run and, after conversion, which steps of the
procedure.  What the cell does is an arbitrary list of choices: for each sequence or step that is run, the number of the limit
that is reached first.
-/
namespace Beep.Spec.BtmRuns
open Beep Beep.BtM Beep.Spec.BtM

/-- `laps` with the entry at `p` replaced -/
def withLap (laps : Nat → Nat) (p n : Nat) : Nat → Nat := fun x => if x = p then n else laps x

/-- `Bio seqs p laps js tr`: the Biologic cycler, at sequence `p`, runs the sequences `tr`, in this order, until the end, when
the limits `js` are reached one after the other.  A loop sequence goes back as many times as it says; `laps` tells how often
each loop has gone back since it was last left at its end. -/
inductive Bio (seqs : List BSeq) : Nat → (Nat → Nat) → List Nat → List Nat → Prop where
  | done (k) : Bio seqs seqs.length k [] []
  | stop (p k j) (q : BSeq) (l : BLim) (hq : seqs[p]? = some q) (ht : q.ctrlType ≠ "Loop") (hl : q.lims[j]? = some l)
      (ha : l.action = "End") : Bio seqs p k [j] [p]
  | next (p k j js tr) (q : BSeq) (l : BLim) (hq : seqs[p]? = some q) (ht : q.ctrlType ≠ "Loop") (hl : q.lims[j]? = some l)
      (ha : l.action = "Next sequence") (h : Bio seqs (p + 1) k js tr) : Bio seqs p k (j :: js) (p :: tr)
  | jump (p k j js tr) (q : BSeq) (l : BLim) (hq : seqs[p]? = some q) (ht : q.ctrlType ≠ "Loop") (hl : q.lims[j]? = some l)
      (ha : l.action = "Goto sequence") (h : Bio seqs l.goto k js tr) : Bio seqs p k (j :: js) (p :: tr)
  | again (p k js tr) (q : BSeq) (hq : seqs[p]? = some q) (ht : q.ctrlType = "Loop") (hk : (k p : Int) < q.repeats)
      (h : Bio seqs q.loopTo (withLap k p (k p + 1)) js tr) : Bio seqs p k js tr
  | leave (p k js tr) (q : BSeq) (hq : seqs[p]? = some q) (ht : q.ctrlType = "Loop") (hk : q.repeats ≤ (k p : Int))
      (h : Bio seqs (p + 1) (withLap k p 0) js tr) : Bio seqs p k js tr

/-- `Mac count steps n lap js tr`: the Maccor cycler, at step number `n`, runs the steps `tr`, in this order, until the End step,
when the end entries `js` are reached one after the other.  The loop step with number `n` goes back to the step behind its Do
step `count n` times; `lap` tells how often the loop has gone back since its Do step. -/
inductive Mac (count : Nat → Int) (steps : List MStep) : Nat → Nat → List Nat → List Nat → Prop where
  | stop (n k) (s : MStep) (hs : at? steps n = some s) (ht : s.stepType = "  End   ") : Mac count steps n k [] []
  | adv (n k js tr) (s : MStep) (hs : at? steps n = some s) (ht : s.stepType = "AdvCycle")
      (h : Mac count steps (n + 1) k js tr) : Mac count steps n k js tr
  | do1 (n k js tr) (s : MStep) (hs : at? steps n = some s) (ht : s.stepType = "  Do 1  ")
      (h : Mac count steps (n + 1) 0 js tr) : Mac count steps n k js tr
  | run (n k j js tr) (s : MStep) (e : MEnd) (hs : at? steps n = some s) (ht : s.stepType ∈ controlled)
      (he : s.ends[j]? = some e) (h : Mac count steps e.step k js tr) : Mac count steps n k (j :: js) (n :: tr)
  | again (n k : Nat) (js tr) (s : MStep) (e : MEnd) (hs : at? steps n = some s) (ht : s.stepType = " Loop 1 ") (he : s.ends = [e])
      (hk : (k : Int) < count n) (h : Mac count steps (e.step + 1) (k + 1) js tr) : Mac count steps n k js tr
  | leave (n k : Nat) (js tr) (s : MStep) (hs : at? steps n = some s) (ht : s.stepType = " Loop 1 ")
      (hk : count n ≤ (k : Int)) (h : Mac count steps (n + 1) 0 js tr) : Mac count steps n k js tr

/-- the loops are set to go back as often as those of the technique: the Loop step of the loop sequence `p` has the number
`before seqs p + 2` -/
def Counted (seqs : List BSeq) (count : Nat → Int) : Prop :=
  ∀ (p : Nat) (q : BSeq), seqs[p]? = some q → q.ctrlType = "Loop" → q.repeats ≠ 0 → count (before seqs p + 2) = q.repeats

/-- the sequences from `s` to `e` are repeated -/
def Looped (seqs : List BSeq) (s e : Nat) : Prop :=
  ∃ q, seqs[e]? = some q ∧ q.ctrlType = "Loop" ∧ q.repeats ≠ 0 ∧ q.loopTo = s

/-- forward jumps go neither to the start of a loop nor to a sequence that has the number of a step behind a Do step, and no
jump leaves a loop backwards -/
def TameJumps (seqs : List BSeq) : Prop :=
  ∀ (p : Nat) (q : BSeq) (l : BLim), seqs[p]? = some q → q.ctrlType ≠ "Loop" → l ∈ q.lims → l.action = "Goto sequence" →
    (p < l.goto → starts seqs l.goto = false ∧ ¬ BehindDo seqs l.goto) ∧
    ∀ s e, Looped seqs s e → s ≤ p → p ≤ e → s ≤ l.goto

/-- two techniques that differ at most in how often their executed loops go back -/
def OtherCounts (seqs seqs' : List BSeq) : Prop :=
  List.Forall₂ (fun q q' : BSeq => q' = { q with repeats := q'.repeats } ∧ (q'.repeats = 0 ↔ q.repeats = 0)) seqs seqs'

/-- a step without the key "StepValue" of its end entries, which no Maccor procedure has: the loop count is read from "Value" -/
def readable (s : MStep) : MStep := { s with ends := s.ends.map fun e => { e with stepValue := none } }

end Beep.Spec.BtmRuns
