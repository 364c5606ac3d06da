import Verif.Model.Text
/-
Splicing two Maccor files with their columns and metadata lines: beep/utils/splice.py.  The counters alone are
`Model/Parsers`.  Reading and writing tab separated text is left to the environment.
-/
namespace Beep.SpliceFile
open Beep

/-- a cell of a table that `pd.read_csv` made (splice.py:51-55) -/
inductive Cell where
  | missing
  | num (x : Rat)
  | text (s : Str)
  deriving DecidableEq, Repr

/-- a table: its columns, and for each row the cell in a column (the cells of other columns are not looked at)
(splice.py:51-55) -/
structure Table where
  columns : List Str
  rows : List (Str → Cell)

/-- the cells of a column, from the first row to the last (splice.py:92-94) -/
def Table.col (t : Table) (c : Str) : List Cell := t.rows.map (fun r => r c)

/-- `a < b`: false for a missing number; text and numbers cannot be compared (splice.py:93) -/
def less : Cell → Cell → Except Err Bool
  | .num a, .num b => .ok (decide (a < b))
  | .text a, .text b => .ok (decide (a < b))
  | .missing, .num _ => .ok false
  | .num _, .missing => .ok false
  | .missing, .missing => .ok false
  | _, _ => .error .typeError

/-- `a + b` of two cells (splice.py:94) -/
def add : Cell → Cell → Except Err Cell
  | .num a, .num b => .ok (.num (a + b))
  | .text a, .text b => .ok (.text (a ++ b))
  | .missing, .num _ => .ok .missing
  | .num _, .missing => .ok .missing
  | .missing, .missing => .ok .missing
  | _, _ => .error .typeError

/-- `data_2[column] + last` (splice.py:94) -/
def addAll (last : Cell) : List Cell → Except Err (List Cell)
  | [] => .ok []
  | y :: ys => do
    let z ← add y last
    let zs ← addAll last ys
    .ok (z :: zs)

/-- splice.py:93-94 on the cells of one column of both tables; `iloc` raises `IndexError` without rows -/
def newColumn (xs ys : List Cell) : Except Err (List Cell) :=
  match ys with
  | [] => .error .indexError
  | y :: _ => match xs.getLast? with
    | none => .error .indexError
    | some last => do
      let b ← less y last
      if b then addAll last ys else .ok ys

/-- one pass of the loop, splice.py:92-94, with the access to the columns -/
def shiftColumn (d₁ d₂ : Table) (c : Str) : Except Err Table :=
  if c ∈ d₂.columns then
    if c ∈ d₁.columns then do
      let ys ← newColumn (d₁.col c) (d₂.col c)
      .ok { d₂ with rows := List.zipWith (fun r v => fun c' => if c' = c then v else r c') d₂.rows ys }
    else .error .keyError
  else .error .keyError

/-- the loop over the columns (splice.py:92-94) -/
def shiftAll (d₁ : Table) : List Str → Table → Except Err Table
  | [], d₂ => .ok d₂
  | c :: cs, d₂ => do
    let d ← shiftColumn d₁ d₂ c
    shiftAll d₁ cs d

/-- splice.py:83-91 -/
def columnsToUpdate : List Str :=
  ["Rec#".toList, "Cyc#".toList, "Test (Sec)".toList, "Loop1".toList, "Loop2".toList, "Loop3".toList, "Loop4".toList]

/-- `pd.concat([data_1, data_2])`: the columns of the first, then those only the second has; a table without a column
has missing cells there (splice.py:98-111) -/
def concat (d₁ d₂ : Table) : Table :=
  { columns := d₁.columns ++ d₂.columns.filter (fun c => c ∉ d₁.columns)
    rows := d₁.rows.map (fun r c => if c ∈ d₁.columns then r c else .missing) ++
      d₂.rows.map (fun r c => if c ∈ d₂.columns then r c else .missing) }

/-- `pd.read_csv` of the lines below the first and `to_csv` of column names and cells (splice.py:51-55, 69) -/
structure Env where
  readCsv : List Str → Except Err Table
  toCsv : List Str → List (List Cell) → List Str

/-- text files by name, as lines (splice.py:46-49, 67-69) -/
abbrev Files := Str → Option (List Str)

/-- `read_maccor_file` (splice.py:34-55): an empty file has no first line -/
def readMaccor (env : Env) (fs : Files) (f : Str) : Except Err (Str × Table) :=
  match fs f with
  | none => .error .fileNotFound
  | some [] => .error .indexError
  | some (l :: ls) => do
    let t ← env.readCsv ls
    .ok (l, t)

/-- `write_maccor_file` (splice.py:57-69) -/
def writeMaccor (env : Env) (fs : Files) (line : Str) (t : Table) (output : Str) : Files :=
  fun f => if f = output then some (line :: env.toCsv t.columns (t.rows.map (fun r => t.columns.map r))) else fs f

/-- `run_splice` (splice.py:113-123) -/
def runSplice (env : Env) (fs : Files) (input₁ input₂ output : Str) : Except Err Files := do
  let m₁ ← readMaccor env fs input₁
  let m₂ ← readMaccor env fs input₂
  let d₂ ← shiftAll m₁.2 columnsToUpdate m₂.2
  .ok (writeMaccor env fs m₁.1 (concat m₁.2 d₂) output)

end Beep.SpliceFile
