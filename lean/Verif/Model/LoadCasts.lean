import Verif.Model.Casts
/-
The number types that loading a structured result gives to the columns of the dictionary it is
handed (beep/structure/base.py `from_dict`, lines 424-428).
-/
namespace Beep.LoadCasts
open Beep Beep.Casts

/-- what a dictionary holds under the name of a column (base.py:427-428): nothing (`None`), a plain
list as `to_dict("list")` and a JSON file give it, or a `pd.Series` with its type, as an earlier
load of the same dictionary leaves it -/
inductive Column where
  | null
  | list (cells : List Cell)
  | series (t : DType) (cells : List Cell)
  deriving DecidableEq

/-- base.py:428 `pd.Series(values, dtype=t)` for one value of a list: an integer type takes a number
only if it holds it exactly ("Trying to coerce float values to integers", "Values are too large to
be losslessly converted"); the other types do as `astype` does. Simplified: all refusals are of one
class, and a `None` in the list counts as NaN. -/
def seriesCell : DType → Cell → Except Err Cell
  | .int b, .num q => if (((trunc q).bmod (2 ^ b) : Int) : Rat) = q then .ok (.num q) else .error .valueError
  | .uint b, .num q => if (((trunc q) % (2 ^ b : Int) : Int) : Rat) = q then .ok (.num q) else .error .valueError
  | t, c => castCell t c

/-- base.py:428: the values of a list in order, the first refusal ends the load -/
def seriesCells (t : DType) : List Cell → Except Err (List Cell)
  | [] => .ok []
  | c :: cs =>
    match seriesCell t c with
    | .error e => .error e
    | .ok c' =>
      match seriesCells t cs with
      | .error e => .error e
      | .ok cs' => .ok (c' :: cs')

/-- base.py:427-428: nothing stays nothing, a list is made a series, a series is cast -/
def columnSeries (t : DType) : Column → Except Err Column
  | .null => .ok .null
  | .list xs =>
    match seriesCells t xs with
    | .error e => .error e
    | .ok ys => .ok (.series t ys)
  | .series _ xs =>
    match castColumn t xs with
    | .error e => .error e
    | .ok ys => .ok (.series t ys)

/-- base.py:425-428 for one object: the listed columns one after the other, written back into the
dictionary; absent columns and columns without value are passed over -/
def loadObject : List (String × DType) → Dict String Column → Except Err (Dict String Column)
  | [], d => .ok d
  | (c, t) :: ts, d =>
    match Dict.get? d c with
    | none => loadObject ts d
    | some .null => loadObject ts d
    | some col =>
      match columnSeries t col with
      | .error e => .error e
      | .ok col' => loadObject ts (Dict.set d c col')

/-- the structured objects in the dictionary given to `from_dict` (base.py:424-428); `none` is `None` -/
abbrev Doc := Dict String (Option (Dict String Column))

/-- base.py:424-428 for all objects: absent ones and those without value are passed over -/
def loadAll : List (String × List (String × DType)) → Doc → Except Err Doc
  | [], d => .ok d
  | (o, ts) :: os, d =>
    match Dict.get? d o with
    | none => loadAll os d
    | some none => loadAll os d
    | some (some cols) =>
      match loadObject ts cols with
      | .error e => .error e
      | .ok cols' => loadAll os (Dict.set d o (some cols'))

/-- structured_dtypes.yaml:1-74: the objects and the types of their columns -/
def structureTypes : List (String × List (String × DType)) :=
  [("cycles_interpolated", interpolatedTypes), ("summary", summaryTypes),
   ("diagnostic_summary", diagnosticSummaryTypes), ("diagnostic_interpolated", diagnosticTypes)]

/-- the dictionary of `from_dict` after base.py:424-428, which is also what is loaded -/
def load (d : Doc) : Except Err Doc := loadAll structureTypes d

/-- base.py:376-380 `table.to_dict("list")` -/
def listed (f : Frame) : Dict String Column := f.map (fun p => (p.1, .list p.2))

end Beep.LoadCasts
