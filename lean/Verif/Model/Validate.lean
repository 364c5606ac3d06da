import Verif.Model.Pandas
/-
Model of `SimpleValidator`, beep/structure/validate.py:56-213.
-/
namespace Beep.Validate
open Beep.Pandas

/-- A data frame column.  `num isFloat vals`: a numeric column, `none` = NaN, with the
numpy dtype reduced to float / integer; `str vals`: an object column of strings.
Other dtypes (datetime, bool) are not modelled (validate.py:124-213). -/
inductive Col where
  | num (isFloat : Bool) (vals : List (Option Rat))
  | str (vals : List String)
  deriving DecidableEq, Repr

/-- the six rules of one column, in the order of `column_schema.get(...)`,
validate.py:141-147 -/
structure ColSchema where
  type : Option String := none
  max : Option Rat := none
  min : Option Rat := none
  maxAtLeast : Option Rat := none
  minIsBelow : Option Rat := none
  monotonic : Option String := none
  deriving DecidableEq, Repr

/-- the rules of a schema entry, validate.py:124-213 -/
inductive RuleKind where
  | type | max | min | maxAtLeast | minIsBelow | monotonic
  deriving DecidableEq, Repr

/-- the information contained in the returned message (the message text itself is
formatting): column, rule, the threshold that is printed, and the row number and the value if
the message contains them (a NaN is `none`) (validate.py:124-213) -/
structure Reason where
  column : String
  kind : RuleKind
  shown : Option Rat := none
  row : Option Nat := none
  value : Option Rat := none
  deriving DecidableEq, Repr

/-- position of the first element satisfying `p`: `np.where(mask)[0][0]` (validate.py:124-213) -/
def firstIdx {α : Type} (p : α → Bool) : List α → Option Nat
  | [] => none
  | a :: as => if p a then some 0 else (firstIdx p as).map (· + 1)

/-- `v > m` with IEEE semantics for NaN (validate.py:124-213) -/
def gtN (m : Rat) : Option Rat → Bool
  | none => false
  | some v => decide (m < v)

/-- `v < m` with IEEE semantics for NaN (validate.py:124-213) -/
def ltN (m : Rat) : Option Rat → Bool
  | none => false
  | some v => decide (v < m)

/-- `v != np.round(v)`; NaN differs from itself (validate.py:74-122) -/
def nonInt : Option Rat → Bool
  | none => true
  | some v => decide (v.den ≠ 1)

/-- `Series.diff().dropna()`: differences of neighbouring rows when both are present
(validate.py:124-213) -/
def diffs : List (Option Rat) → List Rat
  | some a :: some b :: vs => (b - a) :: diffs (some b :: vs)
  | _ :: v :: vs => diffs (v :: vs)
  | _ => []

/-- `check_type`, validate.py:75-122.  `ok none` = valid.  Rounding a non-empty object
column of strings raises `TypeError`. -/
def checkType (name : String) (c : Col) (rule : String) : Except Err (Option Reason) :=
  if !(["integer", "float", "numeric", "string"].contains rule) then .error .valueError  -- 92-96
  else if rule == "integer" then                                                         -- 98-107
    match c with
    | .num _ vals => match firstIdx nonInt vals with
      | some i => .ok (some { column := name, kind := .type, row := some i, value := vals.getD i none })
      | none => .ok none
    | .str [] => .ok none
    | .str (_ :: _) => .error .typeError
  else if rule == "float" then                                                           -- 109-111
    match c with
    | .num true _ => .ok none
    | _ => .ok (some { column := name, kind := .type })
  else if rule == "numeric" then                                                         -- 114-116
    match c with
    | .num _ _ => .ok none
    | _ => .ok (some { column := name, kind := .type })
  else                                                                                   -- 119-124
    match c with
    | .str _ => .ok none
    | _ => .ok (some { column := name, kind := .type })

/-- max rule, validate.py:158-167 (comparing strings with a number raises) -/
def checkMax (name : String) (c : Col) (m : Rat) : Except Err (Option Reason) :=
  match c with
  | .num _ vals => match firstIdx (gtN m) vals with
    | some i => .ok (some { column := name, kind := .max, shown := some m, row := some i, value := vals.getD i none })
    | none => .ok none
  | .str [] => .ok none
  | .str (_ :: _) => .error .typeError

/-- min rule, validate.py:170-179 -/
def checkMin (name : String) (c : Col) (m : Rat) : Except Err (Option Reason) :=
  match c with
  | .num _ vals => match firstIdx (ltN m) vals with
    | some i => .ok (some { column := name, kind := .min, shown := some m, row := some i, value := vals.getD i none })
    | none => .ok none
  | .str [] => .ok none
  | .str (_ :: _) => .error .typeError

/-- max_at_least rule, validate.py:182-191.  The comparison is a single truth value, so `index`
is 0 and the value printed is that of the first row. -/
def checkMaxAtLeast (name : String) (c : Col) (m : Rat) : Except Err (Option Reason) :=
  match c with
  | .num _ vals =>
    if ltN m (maxN vals) then
      .ok (some { column := name, kind := .maxAtLeast, shown := some m, value := vals.getD 0 none })
    else .ok none
  | .str [] => .ok none
  | .str (_ :: _) => .error .typeError

/-- min_is_below rule, validate.py:194-203.  The message prints `max_at_least_rule`
(line 201), not the violated threshold, and again the value of the first row. -/
def checkMinIsBelow (name : String) (c : Col) (maxAtLeast : Option Rat) (m : Rat) :
    Except Err (Option Reason) :=
  match c with
  | .num _ vals =>
    if gtN m (minN vals) then
      .ok (some { column := name, kind := .minIsBelow, shown := maxAtLeast, value := vals.getD 0 none })
    else .ok none
  | .str [] => .ok none
  | .str (_ :: _) => .error .typeError

/-- monotonic rule, validate.py:205-211.  `diff` of two or more strings raises. -/
def checkMonotonic (name : String) (c : Col) : Except Err (Option Reason) :=
  match c with
  | .num _ vals =>
    if ((diffs vals).filter (fun x => decide (x < 0))).length > 0 then
      .ok (some { column := name, kind := .monotonic })
    else .ok none
  | .str (_ :: _ :: _) => .error .typeError
  | .str _ => .ok none

/-- a data frame: column name to column (validate.py:124-213) -/
abbrev Frame := Dict String Col

/-- `dataframe.rename(str.lower, axis="columns")`, validate.py:139 -/
def lowerNames (f : Frame) : Frame := f.map (fun p => (String.ofList (lower p.1), p.2))

/-- `dataframe[column_name]`: `KeyError` when missing (validate.py:124-213) -/
def column (f : Frame) (name : String) : Except Err Col :=
  match f.get? name with
  | some c => .ok c
  | none => .error .keyError

/-- one optional rule: skip when absent, otherwise read the column and check it
(validate.py:124-213) -/
def rule {α : Type} (f : Frame) (name : String) (r : Option α)
    (check : Col → α → Except Err (Option Reason)) : Except Err (Option Reason) :=
  match r with
  | none => .ok none
  | some a => match column f name with
    | .error e => .error e
    | .ok c => check c a

/-- `return False, reason` as soon as a rule fails (validate.py:124-213) -/
def orElse (a : Except Err (Option Reason)) (b : Except Err (Option Reason)) :
    Except Err (Option Reason) :=
  match a with
  | .ok none => b
  | r => r

/-- the body of the loop over the schema for one column, validate.py:141-211 -/
def validateColumn (f : Frame) (name : String) (s : ColSchema) : Except Err (Option Reason) :=
  orElse (rule f name s.type (checkType name)) <|
  orElse (rule f name s.max (checkMax name)) <|
  orElse (rule f name s.min (checkMin name)) <|
  orElse (rule f name s.maxAtLeast (checkMaxAtLeast name)) <|
  orElse (rule f name s.minIsBelow (fun c m => checkMinIsBelow name c s.maxAtLeast m)) <|
  rule f name (if s.monotonic = some "increasing" then some () else none)
    (fun c _ => checkMonotonic name c)

/-- the loop over the schema; `ok none` is `(True, "")`, `ok (some r)` is `(False, r)`
(validate.py:124-213) -/
def validateLoop (f : Frame) : List (String × ColSchema) → Except Err (Option Reason)
  | [] => .ok none
  | (name, s) :: rest => orElse (validateColumn f name s) (validateLoop f rest)

/-- `SimpleValidator.validate`, validate.py:124-213 -/
def validate (schema : Dict String ColSchema) (f : Frame) : Except Err (Option Reason) :=
  validateLoop (lowerNames f) schema

end Beep.Validate
