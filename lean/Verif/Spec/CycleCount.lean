import Verif.Spec.MaccorToBiologic
/-
Specification vocabulary for C23: the runs of a Maccor procedure, the records a Biologic
cycler writes for them, and the Maccor cycle counter.
-/
namespace Beep.Spec.CycleCount
open Beep Beep.MtB Beep.Spec.MtB

/-- a step that measures -/
def IsMeasure (s : Step) : Prop := s.stepType = "Rest" ∨ s.stepType = "Charge" ∨ s.stepType = "Dischrge"
/-- a step that advances the cycle counter -/
def IsAdv (s : Step) : Prop := s.stepType = "AdvCycle"
/-- a step that opens a loop -/
def IsDo (s : Step) : Prop := s.stepType = "Do 1" ∨ s.stepType = "Do 2"
/-- a step that closes a loop -/
def IsLoop (s : Step) : Prop := s.stepType = "Loop 1" ∨ s.stepType = "Loop 2"

/-- the records written while the step `s` at position `pc` runs with the cycle counter at
`c`: pairs of a sequence number and the counter.  Each sequence of the step writes at least
one record. -/
def Emits (steps : List Step) (pc : Nat) (s : Step) (c : Int) (rs : List (Int × Int)) : Prop :=
  (s.limits = none ∧ ∃ n, rs = List.replicate (n + 1) ((firstSeq steps pc : Int), c)) ∨
  (s.limits ≠ none ∧ ∃ n m, rs = List.replicate (n + 1) ((firstSeq steps pc : Int), c) ++
    List.replicate (m + 1) ((firstSeq steps pc : Int) + 1, c))

/-- `Walk steps pc c rs c'`: running the steps from position `pc` with the cycle counter at `c`
to their end writes the records `rs` and leaves the counter at `c'`.  A loop is repeated any
number of times. -/
inductive Walk (steps : List Step) : Nat → Int → List (Int × Int) → Int → Prop where
  | done (c : Int) : Walk steps steps.length c [] c
  | adv (pc : Nat) (s : Step) (c : Int) (rs : List (Int × Int)) (c' : Int) (hs : steps[pc]? = some s) (hk : IsAdv s)
      (h : Walk steps (pc + 1) (c + 1) rs c') : Walk steps pc c rs c'
  | enter (pc : Nat) (s : Step) (c : Int) (rs : List (Int × Int)) (c' : Int) (hs : steps[pc]? = some s) (hk : IsDo s)
      (h : Walk steps (pc + 1) c rs c') : Walk steps pc c rs c'
  | again (pc : Nat) (s : Step) (o : Nat) (c : Int) (rs : List (Int × Int)) (c' : Int) (hs : steps[pc]? = some s)
      (hk : IsLoop s) (ho : OpenAt steps o pc) (h : Walk steps o c rs c') : Walk steps pc c rs c'
  | leave (pc : Nat) (s : Step) (c : Int) (rs : List (Int × Int)) (c' : Int) (hs : steps[pc]? = some s) (hk : IsLoop s)
      (h : Walk steps (pc + 1) c rs c') : Walk steps pc c rs c'
  | measure (pc : Nat) (s : Step) (c : Int) (now rs : List (Int × Int)) (c' : Int) (hs : steps[pc]? = some s)
      (hk : IsMeasure s) (he : Emits steps pc s c now) (h : Walk steps (pc + 1) c rs c') :
      Walk steps pc c (now ++ rs) c'

/-- a record of a data file -/
structure Record where
  /-- column `Ns` -/
  seq : Int
  /-- column `Loop` -/
  lap : Int
  /-- the Maccor cycle counter when the record was taken -/
  cycle : Int
  deriving DecidableEq, Repr

/-- the records of one lap -/
def inLap (lap : Int) (rs : List (Int × Int)) : List Record := rs.map (fun p => ⟨p.1, lap, p.2⟩)

/-- `Laps steps lap c rs c'`: the technique runs one or more times from its start, the first
time with loop column `lap` -/
inductive Laps (steps : List Step) : Int → Int → List Record → Int → Prop where
  | last (lap c : Int) (rs : List (Int × Int)) (c' : Int) (h : Walk steps 0 c rs c') :
      Laps steps lap c (inLap lap rs) c'
  | more (lap c : Int) (rs : List (Int × Int)) (c' : Int) (rs' : List Record) (c'' : Int) (h : Walk steps 0 c rs c')
      (h' : Laps steps (lap + 1) c' rs' c'') : Laps steps lap c (inLap lap rs ++ rs') c''

/-- `Runs ts c files`: the techniques run one after the other, starting with the cycle counter
at `c`, each writing one file of records; a looping technique may run several times -/
inductive Runs : List Technique → Int → List (List Record) → Prop where
  | done (c : Int) : Runs [] c []
  | plain (t : Technique) (ts : List Technique) (c : Int) (rs : List (Int × Int)) (c' : Int)
      (files : List (List Record)) (hl : t.loops = false) (h : Walk t.steps 0 c rs c') (h' : Runs ts c' files) :
      Runs (t :: ts) c (inLap 0 rs :: files)
  | loops (t : Technique) (ts : List Technique) (c : Int) (rs : List Record) (c' : Int)
      (files : List (List Record)) (hl : t.loops = true) (h : Laps t.steps 0 c rs c') (h' : Runs ts c' files) :
      Runs (t :: ts) c (rs :: files)

/-- What the generated rules need of a technique: it measures something; every loop body
begins with a measurement; a loop body that ends with an `AdvCycle` has at least two sequences;
a technique that loops does not begin with `AdvCycle`. -/
structure Regular (t : Technique) : Prop where
  kinds : ∀ s ∈ t.steps, IsMeasure s ∨ IsAdv s ∨ IsDo s ∨ IsLoop s
  measures : ∃ s ∈ t.steps, IsMeasure s
  body : ∀ (o : Nat) d, t.steps[o]? = some d → IsDo d → ∃ s, t.steps[o + 1]? = some s ∧ IsMeasure s
  two : ∀ (o k : Nat) s l, OpenAt t.steps o (k + 1) → t.steps[k]? = some s → IsAdv s →
    t.steps[k + 1]? = some l → IsLoop l → firstSeq t.steps o + 2 ≤ firstSeq t.steps (k + 1)
  start : t.loops = true → ∀ s, t.steps[0]? = some s → ¬ IsAdv s

/-! ### the procedure as the Maccor cycler performs it -/

/-- something recorded while the step at position `pos` (counted from 0) of the procedure runs:
its first (`part = 0`) or second part, and the cycle counter -/
structure Event where
  pos : Nat
  part : Nat
  cycle : Int
  deriving DecidableEq, Repr

/-- what is recorded while the step `s` at position `pos` runs with the cycle counter at `c` -/
def Records (pos : Nat) (s : Step) (c : Int) (evs : List Event) : Prop :=
  (s.limits = none ∧ ∃ n, evs = List.replicate (n + 1) ⟨pos, 0, c⟩) ∨
  (s.limits ≠ none ∧ ∃ n m, evs = List.replicate (n + 1) ⟨pos, 0, c⟩ ++ List.replicate (m + 1) ⟨pos, 1, c⟩)

/-- the loop step at `pc` goes back to position `o`: the last step before it that opens the loop
with the same number -/
def LoopsTo (steps : List Step) (o pc : Nat) : Prop :=
  o < pc ∧ ∃ d l, (d, l) ∈ [("Do 1", "Loop 1"), ("Do 2", "Loop 2")] ∧ (steps[pc]?).map Step.stepType = some l ∧
    (steps[o]?).map Step.stepType = some d ∧ ∀ j : Nat, o < j → j < pc → (steps[j]?).map Step.stepType ≠ some d

/-- `Performs steps pc c evs c'`: the Maccor cycler runs the procedure from position `pc` with the
cycle counter at `c` to its end, records `evs` and leaves the counter at `c'`; every loop is
repeated any number of times, every `AdvCycle` adds one to the counter -/
inductive Performs (steps : List Step) : Nat → Int → List Event → Int → Prop where
  | done (c : Int) : Performs steps steps.length c [] c
  | adv (pc : Nat) (s : Step) (c : Int) (evs : List Event) (c' : Int) (hs : steps[pc]? = some s) (hk : IsAdv s)
      (h : Performs steps (pc + 1) (c + 1) evs c') : Performs steps pc c evs c'
  | enter (pc : Nat) (s : Step) (c : Int) (evs : List Event) (c' : Int) (hs : steps[pc]? = some s) (hk : IsDo s)
      (h : Performs steps (pc + 1) c evs c') : Performs steps pc c evs c'
  | again (pc : Nat) (s : Step) (o : Nat) (c : Int) (evs : List Event) (c' : Int) (hs : steps[pc]? = some s)
      (hk : IsLoop s) (ho : LoopsTo steps o pc) (h : Performs steps o c evs c') : Performs steps pc c evs c'
  | leave (pc : Nat) (s : Step) (c : Int) (evs : List Event) (c' : Int) (hs : steps[pc]? = some s) (hk : IsLoop s)
      (h : Performs steps (pc + 1) c evs c') : Performs steps pc c evs c'
  | measure (pc : Nat) (s : Step) (c : Int) (now evs : List Event) (c' : Int) (hs : steps[pc]? = some s)
      (hk : IsMeasure s) (he : Records pc s c now) (h : Performs steps (pc + 1) c evs c') :
      Performs steps pc c (now ++ evs) c'

/-- the record `r` in the file of technique `t` is the event `e` -/
def SameRecord (t : Technique) (e : Event) (r : Record) : Prop :=
  e.cycle = r.cycle ∧ ∃ j : Nat, e.pos = t.offset + j ∧ r.seq = (firstSeq t.steps j : Int) + e.part

/-- the files, one after the other, are the events -/
inductive Matches : List Technique → List Event → List (List Record) → Prop where
  | done : Matches [] [] []
  | file (t : Technique) (ts : List Technique) (evs evs' : List Event) (f : List Record) (fs : List (List Record))
      (h : List.Forall₂ (SameRecord t) evs f) (h' : Matches ts evs' fs) : Matches (t :: ts) (evs ++ evs') (f :: fs)

end Beep.Spec.CycleCount
