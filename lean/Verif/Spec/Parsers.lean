import Verif.Model.Parsers
/-
Vocabulary for the statements about the cycler file readers: C41-C44, C67.
-/
namespace Beep.Spec.Parsers
open Beep Text Parsers

/-! ### Splicing -/

/-- a column never decreases from one row to the next -/
def NeverDecreases {α : Type} (rows : List (Row α)) (c : Col) : Prop :=
  ∀ (i : Nat) (a b : Row α), rows[i]? = some a → rows[i + 1]? = some b → a.counter c ≤ b.counter c

/-- the counters of a file are non-negative and never decrease -/
def GoodFile {α : Type} (rows : List (Row α)) : Prop :=
  ∀ c, NeverDecreases rows c ∧ ∀ r ∈ rows, 0 ≤ r.counter c

/-! ### Neware lines -/

/-- the three kinds of lines, told apart by how they begin -/
def IsStepLine (l : Str) : Prop := ∃ t, l = ',' :: '"' :: t
def IsRecordLine (l : Str) : Prop := ∃ t, l = ',' :: ',' :: t
def IsCycleLine (l : Str) : Prop := ¬ IsStepLine l ∧ ¬ IsRecordLine l

/-- `l` is the last line of `ls` with the property `p` -/
def IsLast (p : Str → Prop) (ls : List Str) (l : Str) : Prop :=
  p l ∧ ∃ pre post, ls = pre ++ l :: post ∧ ∀ x ∈ post, ¬ p x

/-- the comma separated fields of a line -/
def fields (l : Str) : List Str := splitC ',' l

/-- how many lines are record lines -/
inductive Records : List Str → Nat → Prop where
  | nil : Records [] 0
  | yes {l ls n} : IsRecordLine l → Records ls n → Records (l :: ls) (n + 1)
  | no {l ls n} : ¬ IsRecordLine l → Records ls n → Records (l :: ls) n

/-- `out` is the record `line` carrying the number of the cycle line `c` and the number and internal
resistance of the step line `s`, and otherwise unchanged -/
def Carries (irIndex : Nat) (c s line out : Str) : Prop :=
  (fields out).length = (fields line).length ∧ (fields out)[0]? = (fields c)[0]? ∧
    (fields out)[1]? = (fields s)[1]? ∧ (fields out)[22]? = (fields s)[irIndex]? ∧
    ∀ k, k ≠ 0 → k ≠ 1 → k ≠ 22 → (fields out)[k]? = (fields line)[k]?

/-! ### Battery Archive -/

/-- what a row does, from its current: rest, charge or discharge -/
inductive Activity where
  | rest | charge | discharge
  deriving DecidableEq

/-- currents below a microampere are rest -/
def activity (i : Rat) : Activity :=
  if -(1 / 1000000) < i ∧ i < 1 / 1000000 then .rest else if 0 < i then .charge else .discharge

/-- row `j` is the first row of the step that row `i` belongs to -/
def StepStart (rows : List BaRow) (j i : Nat) : Prop :=
  j ≤ i ∧
    (∀ (k : Nat) (a b : BaRow), j ≤ k → k ≤ i → rows[k]? = some a → rows[i]? = some b →
      activity a.current = activity b.current) ∧
    (∀ (k : Nat) (a b : BaRow), j = k + 1 → rows[k]? = some a → rows[j]? = some b →
      activity a.current ≠ activity b.current)

/-- the last row starts a step of its own -/
def LastStarts (rows : List BaRow) : Prop := StepStart rows (rows.length - 1) (rows.length - 1)

/-! ### Novonix -/

/-- what Novonix step numbers stand for -/
def ChargeStep (i : Int) : Prop := i = 1 ∨ i = 7 ∨ i = 8
def DischargeStep (i : Int) : Prop := i = 2 ∨ i = 9 ∨ i = 10
def RestStep (i : Int) : Prop := i = 0

/-- `m` is the largest of the readings `q` over the rows of `rows` with property `p` -/
def Highest (rows : List NvRow) (p : NvRow → Prop) (q : NvRow → Option Rat) (m : Rat) : Prop :=
  (∃ r ∈ rows, p r ∧ q r = some m) ∧ ∀ r ∈ rows, p r → ∀ v, q r = some v → v ≤ m

/-- `m` is the reading of `q` at the end of the charge of cycle `c` -/
def EndOfCharge (rows : List NvRow) (q : NvRow → Option Rat) (c : Int) (m : Rat) : Prop :=
  Highest rows (fun r => r.cycle = c ∧ ChargeStep r.step) q m

end Beep.Spec.Parsers
