import Verif.Model.Py
/-
The pandas operations used by the modelled code, as list functions.  NaN is `none`.
They model pandas, not a file of /repo; the callers cite the code.
-/
namespace Beep.Pandas

/-- `Series.max()` (skips NaN, NaN when nothing is left)
(pandas; used at base.py:643-646, validate.py:183) -/
def maxN : List (Option Rat) → Option Rat
  | [] => none
  | none :: vs => maxN vs
  | some v :: vs => match maxN vs with
    | none => some v
    | some w => some (if v < w then w else v)

/-- `Series.min()` (pandas; used at base.py:643-646, validate.py:195) -/
def minN : List (Option Rat) → Option Rat
  | [] => none
  | none :: vs => minN vs
  | some v :: vs => match minN vs with
    | none => some v
    | some w => some (if w < v then w else v)

/-- `Series.sum()` of the present values
(pandas; used through the aggregations of base.py:234-274) -/
def sumN : List (Option Rat) → Rat
  | [] => 0
  | none :: vs => sumN vs
  | some v :: vs => v + sumN vs

/-- number of present values (pandas; used through the aggregations of base.py:234-274) -/
def countN : List (Option Rat) → Nat
  | [] => 0
  | none :: vs => countN vs
  | some _ :: vs => countN vs + 1

/-- `Series.mean()`: NaN when nothing is present
(pandas; used through the aggregations of base.py:234-274) -/
def meanN (vs : List (Option Rat)) : Option Rat :=
  if countN vs = 0 then none else some (sumN vs / countN vs)

/-- `b - a` with NaN (pandas; used at base.py:1018-1021) -/
def subN : Option Rat → Option Rat → Option Rat
  | some b, some a => some (b - a)
  | _, _ => none

/-- the rows after the first of `Series.diff()`
(pandas; used at base.py:1018-1021, validate.py:206) -/
def diffFrom (prev : Option Rat) : List (Option Rat) → List (Option Rat)
  | [] => []
  | v :: vs => subN v prev :: diffFrom v vs

/-- `Series.diff()`: the first row is NaN (pandas; used at base.py:1018-1021, validate.py:206) -/
def diff : List (Option Rat) → List (Option Rat)
  | [] => []
  | v :: vs => none :: diffFrom v vs

/-- insert before the first element that is not smaller
(needed for the sorts of base.py:631, 1258-1320) -/
def insertBy {α : Type} (le : α → α → Bool) (a : α) : List α → List α
  | [] => [a]
  | b :: bs => if le a b then a :: b :: bs else b :: insertBy le a bs

/-- a stable sort (`sorted`, `sort_values`, the sorted outer `merge`)
(Python and pandas; used at base.py:631, 1258-1320) -/
def sortBy {α : Type} (le : α → α → Bool) : List α → List α
  | [] => []
  | a :: as => insertBy le a (sortBy le as)

/-- the keys of `groupby(key)` in the order pandas visits them (pandas; used at base.py:752-901) -/
def groupKeys (keys : List Int) : List Int := sortBy (fun a b => decide (a ≤ b)) (unique keys)

/-- `abs` (Python; used at base.py:1323-1372) -/
def absR (x : Rat) : Rat := if x < 0 then -x else x

/-- round to the nearest integer, ties to even (`round`, `np.round`)
(Python and numpy; used at validate.py:74-122) -/
def roundEven (x : Rat) : Int :=
  let f := x.floor
  let d := x - f
  if d < 1 / 2 then f
  else if d > 1 / 2 then f + 1
  else if f % 2 = 0 then f else f + 1

/-- `np.round(x, 2)` in exact arithmetic (numpy; used at featurizer_helpers.py:548-627) -/
def round2 (x : Rat) : Rat := (roundEven (x * 100) : Rat) / 100

end Beep.Pandas
