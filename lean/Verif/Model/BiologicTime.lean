import Verif.Model.Ingest
import Verif.Model.Summary
/-
Model of the time stamps of Biologic exports, beep/structure/biologic.py 126-138.  A stamp is the list of
the fields that `strptime` finds in the text; the matching of the text itself is not modelled.
-/
namespace Beep.BiologicTime
open Beep

/-- a text `%m/%d/%Y %H:%M:%S.%f` split into its fields; `frac` are the digits behind the point
(biologic.py:130, 134-135) -/
structure Stamp where
  y : Int
  m : Int
  d : Int
  h : Int
  mi : Int
  s : Int
  frac : List Nat
  deriving DecidableEq, Repr

/-- `strptime` accepts the text: a date, a time and one to six digits (biologic.py:130, 134-135) -/
def valid (x : Stamp) : Bool :=
  Ingest.validStamp x.y x.m x.d x.h x.mi x.s &&
    decide (1 ≤ x.frac.length ∧ x.frac.length ≤ 6) && x.frac.all (fun k => decide (k < 10))

/-- the number a list of digits denotes (`int(s)`, needed for biologic.py:130) -/
def number (ds : List Nat) : Nat := ds.foldl (fun n k => n * 10 + k) 0

/-- `%f`: the digits are filled up with zeros to six, `"0" * (6 - len(s))` in `_strptime`
(needed for biologic.py:130) -/
def micro (ds : List Nat) : Nat := number (ds ++ List.replicate (6 - ds.length) 0)

/-- `datetime.strptime(x, …)`: seconds of the naive local time, counted from day 0 (biologic.py:130, 134-135) -/
def naive (x : Stamp) : Except Err Rat :=
  if valid x then .ok ((Ingest.seconds x.y x.m x.d x.h x.mi x.s : Int) + (micro x.frac : Rat) / 1000000)
  else .error .valueError

/-- `pacific.localize(…, is_dst=True).astimezone(utc)`: the instant, in seconds.  The rules before 2007
and the range of `datetime` after the shift are not modelled (biologic.py:127-131). -/
def iso (x : Stamp) : Except Err Rat :=
  if valid x then .ok ((Ingest.toUtc x.y x.m x.d x.h x.mi x.s : Int) + (micro x.frac : Rat) / 1000000)
  else .error .valueError

/-- `strptime(x) - strptime(data["date_time"].iloc[0])` in seconds (biologic.py:134-135) -/
def since (first x : Stamp) : Except Err Rat := do
  let a ← naive x
  let b ← naive first
  return a - b

/-- `date_time_iso` and `test_time` of all records (biologic.py:126-136); on an empty column nothing is
applied -/
def standardize (l : List Stamp) : Except Err (List Rat × List Rat) := do
  let isos ← Summary.mapE iso l
  match l with
  | [] => return (isos, [])
  | first :: _ => do
    let times ← Summary.mapE (since first) l
    return (isos, times)

end Beep.BiologicTime
