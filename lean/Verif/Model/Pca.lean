import Verif.Model.Pandas
import Verif.Model.Text
/-
Principal components of interpolated discharges (beep/features/principal_components.py): the table
that is decomposed, the number of components that explain the data, and the two outlier tests.
The decomposition itself (scikit-learn's `StandardScaler` and `PCA`) is a parameter: whatever it has
learned, it turns a row into its embedding and an embedding back into a row.
Floats are exact rationals, NaN is `none`.
-/
namespace Beep.Pca
open Beep Pandas Text

/-! ### The table -/

/-- a row of the structured data, as far as it is read (principal_components.py 237-243): the step
type, the cycle, the value of the pivot column (never missing on an interpolated grid) and the
quantity -/
structure Point where
  stepType : Str
  cycle : Int
  pos : Rat
  qty : Option Rat
  deriving DecidableEq

/-- the table to decompose (principal_components.py 233, 240-244): its columns are named by values
of the pivot column; a row has an entry for each column -/
structure Frame where
  columns : List Rat
  rows : List (List (Option Rat))
  deriving DecidableEq

/-- principal_components.py 237-239: the discharges of the wanted cycles -/
def selected (cycles : List Int) (f : List Point) : List Point :=
  (f.filter (fun p => decide (p.stepType = "discharge".toList))).filter (fun p => decide (p.cycle ∈ cycles))

/-- principal_components.py 242 `df.pivot`: refused when an entry would have two values; rows and
columns in order -/
def pivot (ps : List Point) : Except Err Frame :=
  if (ps.map (fun p => (p.cycle, p.pos))).Nodup then
    let cols := sortBy (fun a b : Rat => decide (a ≤ b)) (unique (ps.map Point.pos))
    .ok { columns := cols
          rows := (groupKeys (ps.map Point.cycle)).map (fun c => cols.map (fun v =>
            (ps.find? (fun p => decide (p.cycle = c ∧ p.pos = v))).bind Point.qty)) }
  else .error .valueError

/-- the entry of a row under a column (principal_components.py 240-243): NaN when the table has no such column -/
def entry : List Rat → List (Option Rat) → Rat → Option Rat
  | c :: cs, x :: xs, v => if c = v then x else entry cs xs v
  | _, _, _ => none

/-- principal_components.py 240-243 `pd.concat([…], ignore_index=True)`: the columns of both, the
rows of both, NaN where a table has no such column -/
def concat (a b : Frame) : Frame :=
  let cols := a.columns ++ b.columns.filter (fun v => decide (v ∉ a.columns))
  { columns := cols
    rows := a.rows.map (fun r => cols.map (entry a.columns r)) ++
      b.rows.map (fun r => cols.map (entry b.columns r)) }

/-- principal_components.py 234-243: the loop over the files -/
def pivotFrom (cycles : List Int) (acc : Frame) : List (List Point) → Except Err Frame
  | [] => .ok acc
  | f :: fs =>
    match pivot (selected cycles f) with
    | .error e => .error e
    | .ok t => pivotFrom cycles (concat acc t) fs

/-- principal_components.py 205-244 `pivot_data`, from the structured data of the listed files
(loading them is not modelled) -/
def pivotData (files : List (List Point)) (cycles : List Int) : Except Err Frame :=
  pivotFrom cycles ⟨[], []⟩ files

/-! ### The decomposition -/

/-- what scikit-learn has learned (principal_components.py 45-48, 92-115): the embedding of a row,
the row rebuilt from an embedding, the number of components and the share of the variance each
explains -/
structure Fitted where
  embed : List Rat → List Rat
  rebuild : List Rat → List Rat
  ncomp : Nat
  ratios : List (Option Rat)

/-- `np.cumsum(self.pca.explained_variance_ratio_) > self.explained_variance_threshold`
(principal_components.py 95-100): the first place where it holds; a NaN stays NaN in the sums -/
def firstAbove (thr : Rat) (acc : Option Rat) (i : Nat) : List (Option Rat) → Option Nat
  | [] => none
  | r :: rs =>
    match acc, r with
    | some a, some x => if a + x > thr then some i else firstAbove thr (some (a + x)) (i + 1) rs
    | _, _ => firstAbove thr none (i + 1) rs

/-- principal_components.py 94-103: the number of components needed; `np.min` refuses an empty list -/
def minComponents (f : Fitted) (thr : Rat) : Except Err Nat :=
  match firstAbove thr (some 0) 0 f.ratios with
  | some i => .ok (i + 1)
  | none => .error .valueError

/-! ### Outliers by reconstruction -/

/-- principal_components.py 172-174, 189-193: the mean distance between a row and its reconstruction
(tables have at least one column: scikit-learn refuses others) -/
def rowError (f : Fitted) (x : List Rat) : Rat :=
  (List.zipWith (fun a b => absR (a - b)) (f.rebuild (f.embed x)) x).sum / x.length

/-- principal_components.py 177-197 `get_reconstruction_error_outliers`: errors and flags; `max` of
no errors raises -/
def errorOutliers (f : Fitted) (train data : List (List Rat)) (threshold : Rat) :
    Except Err (List (Rat × Bool)) :=
  match maxN (train.map (fun x => some (rowError f x))) with
  | none => .error .valueError
  | some m => .ok (data.map (fun x => (rowError f x, decide (rowError f x > m * threshold))))

/-! ### Outliers by decomposition -/

/-- an entry of a sorted list (principal_components.py 150-152, numpy) -/
def nth (s : List Rat) (i : Nat) : Rat := s.getD i 0

/-- the value at a fractional place of a sorted list, linear between neighbours
(numpy; used at principal_components.py 150-152) -/
def atPlace (s : List Rat) (h : Rat) : Rat :=
  nth s h.floor.toNat +
    (h - h.floor.toNat) * (nth s (min (h.floor.toNat + 1) (s.length - 1)) - nth s h.floor.toNat)

/-- `np.percentile(l, q)` for `0 ≤ q ≤ 100` (principal_components.py 150-152) -/
def percentile (q : Rat) (l : List Rat) : Rat :=
  atPlace (sortBy (fun a b : Rat => decide (a ≤ b)) l) (q / 100 * ((l.length : Rat) - 1))

/-- `np.mean(…, axis=0)` of one component (principal_components.py 106-108, 156-158) -/
def mean (l : List Rat) : Rat := l.sum / l.length

/-- the variance whose root is `np.std` (principal_components.py 106-108, 156-158) -/
def variance (l : List Rat) : Rat := mean (l.map (fun x => (x - mean l) * (x - mean l)))

/-- one component of the training embeddings (principal_components.py 105) -/
def component (f : Fitted) (train : List (List Rat)) (j : Nat) : List Rat :=
  train.map (fun x => (f.embed x).getD j 0)

/-- principal_components.py 106-108, 156-158: one whitened entry.  Without spread the division is by
zero; everything it is compared with is then NaN, so that infinities need not be told from NaN. -/
def whiten (sqrt : Rat → Rat) (l : List Rat) (e : Rat) : Option Rat :=
  if sqrt (variance l) = 0 then none else some ((e - mean l) / sqrt (variance l))

/-- principal_components.py 161-163: whether one component of a row lies outside the quantiles of
the whitened training data; comparisons with NaN are false -/
def outside (sqrt : Rat → Rat) (upper lower : Rat) (l : List Rat) (e : Rat) : Bool :=
  match whiten sqrt l e with
  | none => false
  | some w =>
    decide (w > percentile upper (l.filterMap (whiten sqrt l))) ||
      decide (w < percentile lower (l.filterMap (whiten sqrt l)))

/-- principal_components.py 133-164 `get_pca_decomposition_outliers`: the flags (the distances are
not modelled); quantiles that are no percentages are refused, and so are no training data -/
def decompositionOutliers (sqrt : Rat → Rat) (f : Fitted) (train data : List (List Rat))
    (upper lower : Rat) : Except Err (List Bool) :=
  if train = [] ∨ upper < 0 ∨ 100 < upper ∨ lower < 0 ∨ 100 < lower then .error .valueError
  else .ok (data.map (fun x => (List.range f.ncomp).any (fun j =>
    outside sqrt upper lower (component f train j) ((f.embed x).getD j 0))))

end Beep.Pca
