import Verif.Spec.CycleCount
/-
Specification vocabulary for C160: how often the steps of a procedure are run, on the Maccor cycler and, after
conversion, on the Biologic cycler.  Every step is taken to end by going on to the next one.
-/
namespace Beep.Spec.LoopRuns
open Beep Beep.MtB Beep.Spec.MtB Beep.Spec.CycleCount

/-- the count of a loop step is the number in its only end entry -/
def Count (s : Step) (n : Int) : Prop := ∃ e, s.ends = .single e ∧ number e.value = some (n : Rat)

/-- how often each of the two loops has gone back since it was entered -/
structure Laps where
  one : Nat
  two : Nat
  deriving DecidableEq, Repr

/-- `Mac steps pc k tr`: the Maccor cycler, at position `pc` of the procedure, measures the steps at the positions `tr`, in
this order, until the end.  A loop step with count `n` lets the steps since its Do step run `n` times in all. -/
inductive Mac (steps : List Step) : Nat → Laps → List Nat → Prop where
  | done (k : Laps) : Mac steps steps.length k []
  | adv (pc : Nat) (k : Laps) (tr : List Nat) (s : Step) (hs : steps[pc]? = some s) (ht : IsAdv s)
      (h : Mac steps (pc + 1) k tr) : Mac steps pc k tr
  | do1 (pc : Nat) (k : Laps) (tr : List Nat) (s : Step) (hs : steps[pc]? = some s) (ht : s.stepType = "Do 1")
      (h : Mac steps (pc + 1) { k with one := 0 } tr) : Mac steps pc k tr
  | do2 (pc : Nat) (k : Laps) (tr : List Nat) (s : Step) (hs : steps[pc]? = some s) (ht : s.stepType = "Do 2")
      (h : Mac steps (pc + 1) { k with two := 0 } tr) : Mac steps pc k tr
  | measure (pc : Nat) (k : Laps) (tr : List Nat) (s : Step) (hs : steps[pc]? = some s) (ht : IsMeasure s)
      (h : Mac steps (pc + 1) k tr) : Mac steps pc k (pc :: tr)
  | again1 (pc : Nat) (k : Laps) (tr : List Nat) (s : Step) (n : Int) (o : Nat) (hs : steps[pc]? = some s)
      (ht : s.stepType = "Loop 1") (hn : Count s n) (hk : (k.one : Int) + 1 < n) (ho : LoopsTo steps o pc)
      (h : Mac steps (o + 1) { k with one := k.one + 1 } tr) : Mac steps pc k tr
  | leave1 (pc : Nat) (k : Laps) (tr : List Nat) (s : Step) (n : Int) (hs : steps[pc]? = some s)
      (ht : s.stepType = "Loop 1") (hn : Count s n) (hk : n ≤ (k.one : Int) + 1)
      (h : Mac steps (pc + 1) { k with one := 0 } tr) : Mac steps pc k tr
  | again2 (pc : Nat) (k : Laps) (tr : List Nat) (s : Step) (n : Int) (o : Nat) (hs : steps[pc]? = some s)
      (ht : s.stepType = "Loop 2") (hn : Count s n) (hk : (k.two : Int) + 1 < n) (ho : LoopsTo steps o pc)
      (h : Mac steps (o + 1) { k with two := k.two + 1 } tr) : Mac steps pc k tr
  | leave2 (pc : Nat) (k : Laps) (tr : List Nat) (s : Step) (n : Int) (hs : steps[pc]? = some s)
      (ht : s.stepType = "Loop 2") (hn : Count s n) (hk : n ≤ (k.two : Int) + 1)
      (h : Mac steps (pc + 1) { k with two := 0 } tr) : Mac steps pc k tr

/-- `Bio seqs q k tr`: the Biologic cycler, at sequence `q` of a technique, runs the sequences `tr`, in this order, until
the end of the technique.  A loop sequence goes back as many times as it says (`ctrl_repeat`). -/
inductive Bio (seqs : List Seq) : Nat → Nat → List Nat → Prop where
  | done (k : Nat) : Bio seqs seqs.length k []
  | run (q k : Nat) (tr : List Nat) (s : Seq) (hs : seqs[q]? = some s) (ht : s.ctrlType ≠ "Loop")
      (h : Bio seqs (q + 1) k tr) : Bio seqs q k (q :: tr)
  | again (q k : Nat) (tr : List Nat) (s : Seq) (o : Nat) (hs : seqs[q]? = some s) (ht : s.ctrlType = "Loop")
      (hk : (k : Int) < s.repeats) (ho : s.loopTo = o) (h : Bio seqs o (k + 1) tr) : Bio seqs q k tr
  | leave (q k : Nat) (tr : List Nat) (s : Seq) (hs : seqs[q]? = some s) (ht : s.ctrlType = "Loop")
      (hk : s.repeats ≤ (k : Int)) (h : Bio seqs (q + 1) 0 tr) : Bio seqs q k tr

/-- `Protocol rounds ts tr`: the techniques are run one after the other, a looping technique with `num_loops` equal to `n`
`rounds n` times; `tr` lists the technique numbers and sequences in the order in which they are run -/
inductive Protocol (rounds : Int → Nat) : List (Converted × List Seq) → List (Nat × Nat) → Prop where
  | done : Protocol rounds [] []
  | plain (c : Converted) (seqs : List Seq) (rest : List (Converted × List Seq)) (tr : List Nat) (tr' : List (Nat × Nat))
      (hl : c.tech.loops = false) (h : Bio seqs 0 0 tr) (h' : Protocol rounds rest tr') :
      Protocol rounds ((c, seqs) :: rest) (tr.map (fun q => (c.tech.num, q)) ++ tr')
  | loops (c : Converted) (seqs : List Seq) (rest : List (Converted × List Seq)) (tr : List Nat) (tr' : List (Nat × Nat))
      (hl : c.tech.loops = true) (h : Bio seqs 0 0 tr) (h' : Protocol rounds rest tr') :
      Protocol rounds ((c, seqs) :: rest)
        ((List.replicate (rounds c.tech.numLoops) (tr.map (fun q => (c.tech.num, q)))).flatten ++ tr')

/-- the Biologic cycler goes back to a looping technique `num_loops` times (`nt times`), just as a loop sequence goes back
`ctrl_repeat` times -/
def onCycler (n : Int) : Nat := n.toNat + 1

/-- a Maccor loop with count `n` runs `n` times in all, and at least once -/
def asked (n : Int) : Nat := max n.toNat 1

/-- the sequences of the step at position `p` of the steps of a technique -/
def seqsAt (steps : List Step) (p : Nat) : List Nat :=
  List.range' (firstSeq steps p) (firstSeq steps (p + 1) - firstSeq steps p)

/-- the sequences, with their technique numbers, of the step at position `p` of the procedure -/
def translate (ts : List Technique) (p : Nat) : List (Nat × Nat) :=
  ts.flatMap (fun t => if t.offset ≤ p ∧ p < t.offset + t.steps.length then
    (seqsAt t.steps (p - t.offset)).map (fun q => (t.num, q)) else [])

end Beep.Spec.LoopRuns
