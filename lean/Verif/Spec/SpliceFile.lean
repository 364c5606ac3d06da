import Verif.Model.SpliceFile
/-
Vocabulary for the statements about spliced Maccor files.
-/
namespace Beep.Spec.SpliceFile
open Beep SpliceFile

/-- the counters of a Maccor file -/
def Counter (c : Str) : Prop :=
  c = "Rec#".toList ∨ c = "Cyc#".toList ∨ c = "Test (Sec)".toList ∨ c = "Loop1".toList ∨ c = "Loop2".toList ∨
    c = "Loop3".toList ∨ c = "Loop4".toList

/-- the file holds this metadata line and below it this table -/
def Holds (env : Env) (fs : Files) (f line : Str) (t : Table) : Prop :=
  ∃ ls, fs f = some (line :: ls) ∧ env.readCsv ls = .ok t

/-- a column of numbers, some of them possibly missing -/
def Numbers (t : Table) (c : Str) (xs : List (Option Rat)) : Prop :=
  t.rows.map (fun r => r c) = xs.map (fun x => x.elim Cell.missing Cell.num)

/-- a column of texts -/
def Texts (t : Table) (c : Str) (xs : List Str) : Prop := t.rows.map (fun r => r c) = xs.map Cell.text

/-- two tables with rows and all counters; a counter is a column of numbers in both, or one of texts in both -/
def Proper (s t : Table) : Prop :=
  s.rows ≠ [] ∧ t.rows ≠ [] ∧ ∀ c, Counter c → c ∈ s.columns ∧ c ∈ t.columns ∧
    ((∃ xs ys, Numbers s c xs ∧ Numbers t c ys) ∨ (∃ xs ys, Texts s c xs ∧ Texts t c ys))

/-- the numbers of the second table go on after those of the first: if they begin below the last number of the first, it is
added to all of them; they stay as they are if either is missing -/
def GoOn (xs ys zs : List (Option Rat)) : Prop :=
  (∀ last first, xs.getLast? = some (some last) → ys.head? = some (some first) → first < last →
    zs = ys.map (fun y => y.map (fun v => v + last))) ∧
  (∀ last first, xs.getLast? = some (some last) → ys.head? = some (some first) → last ≤ first → zs = ys) ∧
  (xs.getLast? = some none ∨ ys.head? = some none → zs = ys)

/-- what a column looks like in a spliced table: nothing for the rows of a table that does not have it -/
def Part (t : Table) (c : Str) (cells : List Cell) : Prop :=
  (c ∈ t.columns → cells = t.rows.map (fun r => r c)) ∧
  (c ∉ t.columns → cells = List.replicate t.rows.length Cell.missing)

end Beep.Spec.SpliceFile
