import Verif.Model.Table
/-
Train/test splits: beep/prediction/beep_data_splitter.py.
Simplifications: row labels are distinct, every cell is a number, a boolean (0 or 1) or missing, no
column is called "grouping_column"; the shuffle of `KFold` and `str` of cells are arbitrary
functions.  A frame that lost every row raises `BEEPDataSplitterError` here (line 186); with split
columns pandas may raise something else earlier.
-/
namespace Beep.Splitter
open Beep Text Pandas Table

/-- library functions the results depend on (beep_data_splitter.py:228-278) -/
structure Env where
  /-- `np.arange(n)` after the shuffle with the given `random_state` (sklearn `KFold`) -/
  shuffle : Nat → Nat → List Nat
  /-- `str(x)` of a cell -/
  str : Option Rat → Str
  /-- `str(x)` when the row has zero or several cells with that name: the text of a series, which
  ends with the label of the row -/
  strSeries : Str → List (Option Rat) → Str

/-- the arguments of the constructor (96-111), without the matrix -/
structure Args where
  features : List Str
  targets : List Str
  featThresh : Rat := 3 / 4
  sampleThresh : Rat := 1 / 2
  dropNanTargets : Bool := true
  impute : Impute := .median
  nSplits : Nat := 5
  homogenize : Bool := true
  randomState : Nat := 10
  splitCols : Option (List Str) := Option.none
  exclusion : Option (List Str) := Option.none
  dropSplit : Rat := 1 / 2

/-- a `BEEPDataset` (31-42) -/
structure Dataset where
  trainX : Table
  trainY : Table
  testX : Table
  testY : Table

/-- a `BEEPDataSplitter`; `grouping` is the column "grouping_column" of its `X`
(beep_data_splitter.py:96-226) -/
structure Splitter where
  matrix : Table
  args : Args
  X : Table
  y : Table
  featureLabels : List Str
  grouping : Str → Str
  datasets : List Dataset

/-- 153: `str(x[s])` for a row `x` (beep_data_splitter.py:153) -/
def cellText (env : Env) (t : Table) (r s : Str) : Str :=
  match t.cols.filter (fun c => c.name = s) with
  | [c] => env.str (c.cell r)
  | cs => env.strSeries r (cs.map (fun c => c.cell r))

/-- 153: `"::".join([str(x[s]) for s in split_columns])` (beep_data_splitter.py:153) -/
def groupOf (env : Env) (t : Table) (splits : List Str) (r : Str) : Str :=
  join [':', ':'] (splits.map (cellText env t r))

/-- 144-145: missing exclusion flags become `False` -/
def fillFalse (excl : List Str) (t : Table) : Table :=
  { t with cols := t.cols.map (fun c =>
      if c.name ∈ excl then { c with cell := fun r => some ((c.cell r).getD 0) } else c) }

/-- 156-164: all exclusion flags of the row are set -/
def included (excl : List Str) (t : Table) (r : Str) : Bool :=
  excl.all (fun e => (t.cols.filter (fun c => c.name = e)).all (fun c => c.cell r ≠ some 0))

/-- 166-176: the groups of which too few samples are included -/
def excludedGroups (thr : Rat) (grp : Str → Str) (inc : Str → Bool) (rows : List Str) : List Str :=
  (unique (rows.map grp)).filter (fun g =>
    decide (((rows.filter (fun r => inc r && (grp r == g))).length : Rat) /
      ((rows.filter (fun r => grp r == g)).length : Rat) < thr))

/-- 156-178: the samples left after the exclusions -/
def applyExclusion (a : Args) (grp : Str → Str) (t : Table) : Except Err Table :=
  match a.exclusion with
  | Option.none => .ok t
  | some [] => .error .indexError
  | some excl =>
    let inc := included excl t
    match a.splitCols with
    | Option.none => .ok { t with rows := t.rows.filter inc }
    | some _ =>
      let bad := excludedGroups a.dropSplit grp inc t.rows
      .ok { t with rows := t.rows.filter (fun r => inc r && !(bad.contains (grp r))) }

/-- names of `l` that the frame lacks (beep_data_splitter.py:96-226) -/
def missing (t : Table) (l : List Str) : List Str := l.filter (fun n => !(t.names.contains n))

/-- `X[names]` raises when a name is not a column (beep_data_splitter.py:96-226) -/
def need (t : Table) (l : List Str) : Except Err Unit :=
  if missing t l = [] then .ok () else .error .keyError

/-- 113-206: the cleaned features and targets -/
def clean (env : Env) (a : Args) (m : Table) : Except Err (Table × Table × (Str → Str)) := do
  let splits := a.splitCols.getD []
  let excl := a.exclusion.getD []
  if missing m (a.targets ++ a.features ++ splits ++ excl) ≠ [] then .error .beepError
  else
    let X := m.select (a.features ++ splits ++ excl)
    let y := m.select a.targets
    let X := X.dropCols a.featThresh
    let X := X.dropRows (a.sampleThresh * X.cols.length)
    need X excl
    let X := fillFalse excl X
    let X ← impute a.impute X
    need X splits
    let grp := groupOf env X splits
    let X ← applyExclusion a grp X
    let ncols := X.cols.length + (if a.splitCols.isSome then 1 else 0)
    if X.rows.length < 2 ∨ ncols < 1 then .error .beepError
    else
      let y := y.loc X.rows
      if y.rows.all (fun r => y.cols.all (fun c => (c.cell r).isSome)) then
        .ok (X, y, grp)
      else if a.dropNanTargets then
        let y := y.dropIncomplete
        if y.rows.length < 2 then .error .beepError
        else .ok (X.loc y.rows, y, grp)
      else .error .beepError

/-- 96-226 `BEEPDataSplitter.__init__`; homogenizing renames the columns of the caller's matrix -/
def construct (env : Env) (a : Args) (m : Table) : Except Err Splitter := do
  let m := if a.homogenize then m.rename stripName else m
  let (X, y, grp) ← clean env a m
  .ok { matrix := m, args := a, X := X, y := y,
        featureLabels := X.names.filter (fun c => c ∈ a.features),
        grouping := grp, datasets := [] }

/-- sizes of the folds of `KFold(n_splits=k)` (beep_data_splitter.py:228-278) -/
def foldSizes (n k : Nat) : List Nat :=
  (List.range k).map (fun i => n / k + if i < n % k then 1 else 0)

/-- consecutive pieces of the given sizes (beep_data_splitter.py:228-278) -/
def chunks {α : Type} : List Nat → List α → List (List α)
  | [], _ => []
  | s :: ss, l => l.take s :: chunks ss (l.drop s)

/-- `KFold(n_splits=k, shuffle=True).split`: pairs of train and test positions in increasing order;
fewer than two folds and more folds than samples are refused (beep_data_splitter.py:228-278) -/
def kfold (shuffled : List Nat) (n k : Nat) : Except Err (List (List Nat × List Nat)) :=
  if k < 2 ∨ n < k then .error .valueError
  else .ok ((chunks (foldSizes n k) shuffled).map (fun c =>
    ((List.range n).filter (fun i => !(c.contains i)), (List.range n).filter (fun i => c.contains i))))

/-- 228-278 `split` -/
def split (env : Env) (s : Splitter) : Except Err Splitter :=
  match s.args.splitCols with
  | Option.none => do
    let n := s.X.rows.length
    let fs ← kfold (env.shuffle s.args.randomState n) n s.args.nSplits
    let F := s.X.select s.featureLabels
    .ok { s with datasets := fs.map (fun f =>
      ⟨F.iloc f.1, s.y.iloc f.1, F.iloc f.2, s.y.iloc f.2⟩) }
  | some _ => do
    let groups := unique (s.X.rows.map s.grouping)
    let n := groups.length
    let fs ← kfold (env.shuffle s.args.randomState n) n s.args.nSplits
    let F := s.X.select s.featureLabels
    let side := fun (is : List Nat) =>
      let labels := is.filterMap (fun i => groups[i]?)
      s.X.rows.filter (fun r => labels.contains (s.grouping r))
    .ok { s with datasets := fs.map (fun f =>
      ⟨F.loc (side f.1), s.y.loc (side f.1), F.loc (side f.2), s.y.loc (side f.2)⟩) }

/-- what `as_dict` saves (321-339): the exclusion columns, the impute strategy and the split
threshold are not in it -/
structure Saved where
  matrix : Table
  features : List Str
  targets : List Str
  featThresh : Rat
  sampleThresh : Rat
  dropNanTargets : Bool
  homogenize : Bool
  nSplits : Nat
  randomState : Nat
  splitCols : Option (List Str)
  datasets : List Dataset

/-- 44-52 `BEEPDataset.as_dict` -/
def Dataset.asDict (d : Dataset) : Dataset :=
  ⟨d.trainX.viaDict, d.trainY.viaDict, d.testX.viaDict, d.testY.viaDict⟩

/-- 321-339 `as_dict`: splits first when that has not been done; also returns the object as the call
leaves it -/
def asDict (env : Env) (s : Splitter) : Except Err (Splitter × Saved) := do
  let s ← if s.datasets.isEmpty then split env s else .ok s
  .ok (s, {
    matrix := s.matrix.viaDict, features := s.featureLabels, targets := s.args.targets,
    featThresh := s.args.featThresh, sampleThresh := s.args.sampleThresh,
    dropNanTargets := s.args.dropNanTargets, homogenize := s.args.homogenize,
    nSplits := s.args.nSplits, randomState := s.args.randomState,
    splitCols := s.args.splitCols, datasets := s.datasets.map Dataset.asDict })

/-- 341-359 `from_dict` -/
def fromDict (env : Env) (d : Saved) : Except Err Splitter := do
  let s ← construct env
    { features := d.features, targets := d.targets, featThresh := d.featThresh,
      sampleThresh := d.sampleThresh, dropNanTargets := d.dropNanTargets,
      homogenize := d.homogenize, nSplits := d.nSplits, randomState := d.randomState,
      splitCols := d.splitCols } d.matrix
  .ok { s with datasets := d.datasets }

end Beep.Splitter
