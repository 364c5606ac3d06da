import Verif.Model.Text
import Verif.Model.Pandas
/-
Pieces of the cycler file readers: splicing of Maccor files (beep/utils/splice.py), Neware record
lines and test time (beep/structure/neware.py), Battery Archive step times
(beep/structure/battery_archive.py), Novonix capacities (beep/structure/novonix.py).
Floats are exact rationals.
-/
namespace Beep.Parsers
open Beep Text Pandas

/-! ### Splicing two Maccor files -/

/-- the columns `column_increment` updates (splice.py 83-91) -/
inductive Col where
  | recNum | cyc | test | loop1 | loop2 | loop3 | loop4
  deriving DecidableEq

/-- a row: its counters and the remaining columns (splice.py:71-123) -/
structure Row (α : Type) where
  counter : Col → Rat
  rest : α

/-- splice.py 92-94: one pass of the loop.  Adding a constant to a column of the second table when
its first entry is below the last entry of the first table.  The seven columns are independent, so
the loop is modelled column by column. -/
def shift {α : Type} (last first : Row α) (c : Col) : Rat :=
  if first.counter c < last.counter c then last.counter c else 0

/-- splice.py 71-96 `column_increment`: the second table; an empty table raises (`iloc`) -/
def columnIncrement {α : Type} (d₁ d₂ : List (Row α)) : Except Err (List (Row α)) :=
  match d₂.head?, d₁.getLast? with
  | some first, some last =>
    .ok (d₂.map (fun r => { r with counter := fun c => r.counter c + shift last first c }))
  | _, _ => .error .indexError

/-- splice.py 98-123 `splice_operation` and `run_splice`, without the files -/
def splice {α : Type} (d₁ d₂ : List (Row α)) : Except Err (List (Row α)) := do
  let d₂' ← columnIncrement d₁ d₂
  .ok (d₁ ++ d₂')

/-! ### Neware -/

/-- neware.py 98-104: `diff().fillna(0).apply(lambda x: 0 if x < 0 else x).cumsum()` -/
def testTimeFrom (prev acc : Rat) : List Rat → List Rat
  | [] => []
  | t :: ts =>
    let d := t - prev
    let acc' := acc + (if d < 0 then 0 else d)
    acc' :: testTimeFrom t acc' ts

/-- neware.py 98-104: the first difference is missing and filled with 0 -/
def testTime : List Rat → List Rat
  | [] => []
  | t :: ts => 0 :: testTimeFrom t 0 ts

/-- what the line loop remembers (neware.py 56-57): the numbers are read from lines, and are not
text (so that writing them raises) or not set before the first such line -/
structure LineState where
  cycle : Option Str
  step : Option Str
  ir : Option Str
  deriving DecidableEq

/-- `l[i] = v` (neware.py:19-121) -/
def setField (l : List Str) (i : Nat) (v : Str) : Except Err (List Str) :=
  if i < l.length then .ok (l.set i v) else .error .indexError

/-- neware.py 58-72, one line: the new state and the line written to the record file, if any -/
def routeLine (irIndex : Nat) (st : LineState) (line : Str) : Except Err (LineState × Option Str) :=
  if line.take 2 = [',', '"'] then
    match (splitC ',' line)[1]?, (splitC ',' line)[irIndex]? with
    | some n, some r => .ok ({ st with step := some n, ir := some r }, none)
    | _, _ => .error .indexError
  else if line.take 2 = [',', ','] then
    match st.ir with
    | none =>
      -- `ir_value` is not bound; the two assignments before it cannot fail on such a line
      .error .unboundLocal
    | some r => do
      let l₂ ← setField (((splitC ',' line).set 0 (st.cycle.getD [])).set 1 (st.step.getD [])) 22 r
      -- `",".join` refuses the numbers 0 that stand for "no line seen yet"
      match st.cycle, st.step with
      | some _, some _ => .ok (st, some (join [','] l₂))
      | _, _ => .error .typeError
  else
    match (splitC ',' line)[0]? with
    | some n => .ok ({ st with cycle := some n }, none)
    | none => .error .indexError

/-- neware.py 58-72, the loop: the lines of the record file -/
def routeLines (irIndex : Nat) (st : LineState) : List Str → Except Err (List Str)
  | [] => .ok []
  | l :: ls => do
    let (st', out) ← routeLine irIndex st l
    let rest ← routeLines irIndex st' ls
    .ok (out.toList ++ rest)

/-- neware.py 56-57: the state before the first line -/
def initState : LineState := ⟨none, none, none⟩

/-! ### Battery Archive -/

/-- battery_archive.py 126-140 `decide_step_index` -/
def decideStepIndex (i : Rat) : Nat :=
  if absR i < 1 / 1000000 then 1 else if i < 0 then 3 else 2

/-- one row: test time and current (battery_archive.py:59-140) -/
structure BaRow where
  time : Rat
  current : Rat
  deriving DecidableEq

/-- battery_archive.py 82: the rows where the step index differs from the row before; the first row
always counts (the difference to NaN is NaN, which is not zero) -/
def changesFrom (prev : Nat) (i : Nat) : List Nat → List Nat
  | [] => []
  | s :: ss => if s = prev then changesFrom s (i + 1) ss else i :: changesFrom s (i + 1) ss

/-- battery_archive.py 82 -/
def changes : List Nat → List Nat
  | [] => []
  | s :: ss => 0 :: changesFrom s 1 ss

/-- battery_archive.py 84-94: for each step change the start time, repeated up to the next step
change (the last one up to the last row, exclusive) -/
def repeats (times : List Rat) : List Nat → List Nat → List Rat
  | c :: cs, e :: es => List.replicate (e - c) (times[c]?.getD 0) ++ repeats times cs es
  | _, _ => []

/-- battery_archive.py 80-100: the step times -/
def stepTimes (rows : List BaRow) : Except Err (List Rat) :=
  let steps := rows.map (fun r => decideStepIndex r.current)
  let times := rows.map BaRow.time
  match changes steps with
  | [] => .error .indexError
  | c :: cs =>
    let sub := repeats times (c :: cs) (cs ++ [rows.length - 1])
    match sub.getLast? with
    | none => .error .indexError
    | some l => .ok (List.zipWith (· - ·) times (sub ++ [l]))

/-! ### Novonix -/

/-- the step names of conversion_schemas/novonix_conversion.yaml (novonix.py:19-200) -/
inductive StepName where
  | rest | ccCharge | ccDischarge | cccvCharge | cvHoldCharge | cccvDischarge | cvHoldDischarge
  deriving DecidableEq

/-- `step_names` of conversion_schemas/novonix_conversion.yaml; `none`: the reader raises
(novonix.py 95-106) -/
def stepName (i : Int) : Option StepName :=
  if i = 0 then some .rest else if i = 1 then some .ccCharge else if i = 2 then some .ccDischarge
  else if i = 7 then some .cccvCharge else if i = 8 then some .cvHoldCharge
  else if i = 9 then some .cccvDischarge else if i = 10 then some .cvHoldDischarge else none

/-- `step_is_chg` of the same file (novonix.py 111-114) -/
def StepName.isCharge : StepName → Bool
  | .ccCharge | .cccvCharge | .cvHoldCharge => true
  | _ => false

/-- one row of a Novonix table (novonix.py:19-200) -/
structure NvRow where
  cycle : Int
  step : Int
  capacity : Option Rat
  energy : Option Rat
  deriving DecidableEq

/-- the derived columns (novonix.py:19-200) -/
structure NvOut where
  chargeCapacity : Option Rat
  dischargeCapacity : Option Rat
  chargeEnergy : Option Rat
  dischargeEnergy : Option Rat
  deriving DecidableEq

/-- whether a row is of step type "charge" (novonix.py:19-200) -/
def NvRow.charges (r : NvRow) : Bool := match stepName r.step with
  | some n => n.isCharge
  | none => false

/-- novonix.py 143-145: `groupby("cycle_index")["charge_..."].transform("max")` -/
def chargeMax (rows : List NvRow) (q : NvRow → Option Rat) (c : Int) : Option Rat :=
  maxN ((rows.filter (fun r => r.cycle = c ∧ r.charges)).map q)

/-- novonix.py 147-155: a cycle whose rows are all of type "discharge" uses the largest capacity,
for both quantities -/
def reference (rows : List NvRow) (q : NvRow → Option Rat) (c : Int) : Option Rat :=
  if (rows.filter (fun r => r.cycle = c)).all (fun r => !r.charges) then
    maxN ((rows.filter (fun r => r.cycle = c)).map NvRow.capacity)
  else chargeMax rows q c

/-- novonix.py 116-122 and 161-170 for one row and one quantity: charge and discharge column -/
def columns (rows : List NvRow) (q : NvRow → Option Rat) (r : NvRow) : Option Rat × Option Rat :=
  if r.charges then (q r, none)
  else if stepName r.step = some .rest then (none, q r)
  else (none, subN (reference rows q r.cycle) (q r))

/-- novonix.py 95-173: the derived columns of all rows -/
def novonix (rows : List NvRow) : Except Err (List NvOut) :=
  if rows.all (fun r => (stepName r.step).isSome) then
    .ok (rows.map (fun r =>
      { chargeCapacity := (columns rows NvRow.capacity r).1
        dischargeCapacity := (columns rows NvRow.capacity r).2
        chargeEnergy := (columns rows NvRow.energy r).1
        dischargeEnergy := (columns rows NvRow.energy r).2 }))
  else .error .valueError

end Beep.Parsers
