import Verif.Model.Splitter
/-
Vocabulary for the statements about cleaning, splitting and saving: C48-C50.
-/
namespace Beep.Spec.Splitter
open Beep Table Splitter

/-- the column with the given name; matrices have one -/
def cellOf (m : Table) (n r : Str) : Option Rat :=
  match m.cols.find? (fun c => c.name = n) with
  | Option.none => Option.none
  | some c => c.cell r

/-- the sample has a value in the column -/
def Has (m : Table) (r n : Str) : Prop := (cellOf m n r).isSome = true

instance (m : Table) (r n : Str) : Decidable (Has m r n) := inferInstanceAs (Decidable (_ = true))

/-- fraction of the samples that have the feature -/
def featureFraction (m : Table) (n : Str) : Rat :=
  ((m.rows.filter (fun r => Has m r n)).length : Rat) / (m.rows.length : Rat)

/-- fraction of the features that the sample has -/
def sampleFraction (m : Table) (features : List Str) (r : Str) : Rat :=
  ((features.filter (fun n => Has m r n)).length : Rat) / (features.length : Rat)

/-- all flags of the sample are present and set -/
def Flagged (m : Table) (flags : List Str) (r : Str) : Prop :=
  ∀ e ∈ flags, cellOf m e r ≠ none ∧ cellOf m e r ≠ some 0

instance (m : Table) (flags : List Str) (r : Str) : Decidable (Flagged m flags r) :=
  inferInstanceAs (Decidable (∀ e ∈ flags, cellOf m e r ≠ none ∧ cellOf m e r ≠ some 0))

/-- the columns looked at (features, split and exclusion columns) that enough samples have -/
def wellFilled (m : Table) (thr : Rat) (names : List Str) : List Str :=
  names.filter (fun n => thr * (m.rows.length : Rat) ≤ ((m.rows.filter (fun r => Has m r n)).length : Rat))

/-- the sample has enough of the columns -/
def WellFilled (m : Table) (thr : Rat) (names : List Str) (r : Str) : Prop :=
  thr * (names.length : Rat) ≤ ((names.filter (fun n => Has m r n)).length : Rat)

instance (m : Table) (thr : Rat) (names : List Str) (r : Str) : Decidable (WellFilled m thr names r) :=
  inferInstanceAs (Decidable (_ ≤ _))

/-- the part of the samples with property `p` that has its flags set -/
def flaggedShare (m : Table) (flags : List Str) (p : Str → Bool) : Rat :=
  ((m.rows.filter (fun q => p q && decide (Flagged m flags q))).length : Rat) /
    ((m.rows.filter p).length : Rat)

/-- every sample of the frame has every column -/
def Complete (t : Table) : Prop := ∀ r ∈ t.rows, ∀ c ∈ t.cols, (c.cell r).isSome = true

/-- the frame shows the given samples in order, with the cells they have in `src` -/
def Shows (t src : Table) (samples : List Str) : Prop := t.rows = samples ∧ t.cols = src.cols

/-- the datasets do not leak: in each, features and targets are of the same samples in the same
order, no sample is on both sides and every sample is on one of them; every sample is in exactly one
of the test sets -/
def Leakless (samples : List Str) (n : Nat) (ds : List Dataset) : Prop :=
  ds.length = n ∧
  (∀ d ∈ ds, d.trainY.rows = d.trainX.rows ∧ d.testY.rows = d.testX.rows ∧
    d.trainX.rows.Nodup ∧ d.testX.rows.Nodup ∧
    (∀ r, ¬ (r ∈ d.trainX.rows ∧ r ∈ d.testX.rows)) ∧
    ∀ r, r ∈ samples ↔ r ∈ d.trainX.rows ∨ r ∈ d.testX.rows) ∧
  ∀ r ∈ samples, ∃ i, i < n ∧ ∀ j d, ds[j]? = some d → (r ∈ d.testX.rows ↔ j = i)

/-- the library shuffles -/
def Shuffles (env : Env) : Prop := ∀ seed n, (env.shuffle seed n).Perm (List.range n)

/-- a frame as the user sees it: row labels, column names and cells -/
def sees (t : Table) : List Str × List Str × List (Str × List (Option Rat)) :=
  (t.rows, t.names, t.body)

/-- two splitters show the user the same samples, features, targets and datasets -/
def Same (s t : Splitter) : Prop :=
  sees s.X = sees t.X ∧ sees s.y = sees t.y ∧ s.featureLabels = t.featureLabels ∧
  s.args.targets = t.args.targets ∧
  s.datasets.map (fun d => (sees d.trainX, sees d.trainY, sees d.testX, sees d.testY)) =
    t.datasets.map (fun d => (sees d.trainX, sees d.trainY, sees d.testX, sees d.testY))

/-- two matrices have the same samples, the same columns and gaps in the same places -/
def SameGaps (m m' : Table) : Prop :=
  m.rows = m'.rows ∧ m.names = m'.names ∧ ∀ r n, Has m r n ↔ Has m' r n

/-- the column has the same values in both matrices -/
def SameColumn (m m' : Table) (n : Str) : Prop := ∀ r, cellOf m n r = cellOf m' n r

end Beep.Spec.Splitter
