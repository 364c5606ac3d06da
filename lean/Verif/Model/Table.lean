import Verif.Model.Text
import Verif.Model.Pandas
/-
The data frame operations shared by beep/prediction/beep_data_splitter.py and beep/model.py.
A frame is its row labels and its columns; a cell is looked up by row label, so the labels (file
names, one row each: C45) are taken to be distinct.  Column names may repeat.  Every cell is a
number or missing; infinities are missing (both files replace them first), booleans are 0 and 1.
-/
namespace Beep.Table
open Beep Text Pandas

/-- one column of a data frame (pandas; used in model.py:90-208, beep_data_splitter.py:96-226) -/
structure Col where
  name : Str
  cell : Str → Option Rat

/-- `pd.DataFrame` with distinct row labels
(pandas; used in model.py:90-208, beep_data_splitter.py:96-226) -/
structure Table where
  rows : List Str
  cols : List Col

/-- `df.columns` (model.py:90-208) -/
def Table.names (t : Table) : List Str := t.cols.map Col.name

/-- the printed frame: row labels with their cells (the rows of model.py:90-208) -/
def Table.body (t : Table) : List (Str × List (Option Rat)) :=
  t.rows.map (fun r => (r, t.cols.map (fun c => c.cell r)))

/-- `df[names]`: every column with that name, in the order of `names` (the callers check that the
names exist) (model.py:157, 354) -/
def Table.select (t : Table) (names : List Str) : Table :=
  { t with cols := names.flatMap (fun n => t.cols.filter (fun c => c.name = n)) }

/-- `df.loc[labels]` for labels of the frame (model.py:157, 173) -/
def Table.loc (t : Table) (labels : List Str) : Table := { t with rows := labels }

/-- `df.iloc[positions]` (beep_data_splitter.py:239-243) -/
def Table.iloc (t : Table) (is : List Nat) : Table :=
  { t with rows := is.filterMap (fun i => t.rows[i]?) }

/-- number of rows in which the column has a value: `df.count(axis=0)` (needed for model.py:138) -/
def rowsWith (rows : List Str) (c : Col) : Nat := (rows.filter (fun r => (c.cell r).isSome)).length

/-- number of columns with a value in the row: `df.count(axis=1)` (needed for model.py:139) -/
def colsWith (cols : List Col) (r : Str) : Nat := (cols.filter (fun c => (c.cell r).isSome)).length

/-- `df.dropna(axis=1, thresh=thr * df.shape[0])` (model.py:138) -/
def Table.dropCols (t : Table) (thr : Rat) : Table :=
  { t with cols := t.cols.filter (fun c => thr * t.rows.length ≤ rowsWith t.rows c) }

/-- `df.dropna(axis=0, thresh=thr)` with an absolute count (model.py:139) -/
def Table.dropRows (t : Table) (thr : Rat) : Table :=
  { t with rows := t.rows.filter (fun r => thr ≤ colsWith t.cols r) }

/-- `df.dropna(axis=0)`: rows with a missing value go (model.py:160) -/
def Table.dropIncomplete (t : Table) : Table :=
  { t with rows := t.rows.filter (fun r => t.cols.all (fun c => (c.cell r).isSome)) }

/-- `Series.median()`: NaN when nothing is present (model.py:466) -/
def medianN (vs : List (Option Rat)) : Option Rat :=
  let s := sortBy (fun a b => decide (a ≤ b)) (vs.filterMap id)
  if s.length % 2 = 1 then s[s.length / 2]?
  else match s[s.length / 2 - 1]?, s[s.length / 2]? with
    | some a, some b => some ((a + b) / 2)
    | _, _ => none

/-- beep_data_splitter.py 311-319, model.py 465-472: the `impute_strategy` argument -/
inductive Impute where
  | median
  | mean
  | none
  | other
  deriving DecidableEq, Repr

/-- the value a column's missing cells get (model.py:453-472) -/
def fillValue (m : Impute) (vs : List (Option Rat)) : Option Rat :=
  match m with
  | .median => medianN vs
  | .mean => meanN vs
  | .none => Option.none
  | .other => Option.none

/-- `x.fillna(v)`; filling with NaN changes nothing (model.py:466) -/
def fillCol (m : Impute) (rows : List Str) (c : Col) : Col :=
  let v := fillValue m (rows.map c.cell)
  { c with cell := fun r => match c.cell r with
      | some x => some x
      | Option.none => v }

/-- beep_data_splitter.py 300-319 and model.py 453-472 `_impute_df` -/
def impute (m : Impute) (t : Table) : Except Err Table :=
  match m with
  | .other => .error .valueError
  | _ => .ok { t with cols := t.cols.map (fillCol m t.rows) }

/-- `s.split("::")` (model.py:90-208) -/
def splitD : Str → List Str
  | [] => [[]]
  | ':' :: ':' :: s => [] :: splitD s
  | c :: s => match splitD s with
    | [] => [[c]]
    | p :: ps => (c :: p) :: ps

/-- beep_data_splitter.py 294-297: the name without its parameter hash, `"::".join(c.split("::")[:2])` -/
def stripName (s : Str) : Str := join [':', ':'] ((splitD s).take 2)

/-- model.py 447-450: the name without its last part, `"::".join(c.split("::")[:-1])` -/
def stripLast (s : Str) : Str := join [':', ':'] (splitD s).dropLast

/-- `X.columns = [f(c) for c in X.columns]` (model.py:298-377) -/
def Table.rename (t : Table) (f : Str → Str) : Table :=
  { t with cols := t.cols.map (fun c => { c with name := f c.name }) }

/-- `DataFrame.to_dict` and back: a dictionary keeps one column per name, the last one; without
columns the rows are gone too (model.py:474-515, 518-562) -/
def Table.viaDict (t : Table) : Table :=
  { rows := if t.cols.isEmpty then [] else t.rows
    cols := (t.cols.foldl (fun d c => Dict.set d c.name c) ([] : Dict Str Col)).map Prod.snd }

end Beep.Table
