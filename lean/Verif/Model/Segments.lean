import Verif.Model.Pandas
/-
Model of the constant-voltage and pause helpers, beep/structure/base.py.
-/
namespace Beep.Segments
open Beep.Pandas

/-- the columns of the charge table that are used (no NaN) (base.py:1454-1528) -/
structure Row where
  time : Rat
  volt : Rat
  curr : Rat
  cap : Rat
  deriving DecidableEq, Repr

/-- tolerances, base.py:1454 -/
structure Tol where
  dt : Rat := 1
  dVdt : Rat := 1 / 100000
  dIdt : Rat := 1 / 10000

/-- negation of the loop condition of base.py:1479 for one pair of consecutive rows -/
def isCV (tol : Tol) (a b : Row) : Bool :=
  let dt := b.time - a.time
  !(decide (dt < tol.dt) || decide (absR ((b.volt - a.volt) / dt) > tol.dVdt) ||
    decide (absR ((b.curr - a.curr) / dt) < tol.dIdt))

/-- the loop of base.py:1478-1480: number of leading pairs that are not CV -/
def firstCV (tol : Tol) : List Row → Nat
  | [] => 0
  | [_] => 0
  | a :: b :: rest => if isCV tol a b then 0 else firstCV tol (b :: rest) + 1

/-- `iat[i - 1]` of the time column; `iat[-1]` is the last entry (base.py:1454-1528) -/
def startTime (rows : List Row) (i : Nat) : Option Rat :=
  match i with
  | 0 => rows.getLast?.map Row.time
  | i + 1 => (rows[i]?).map Row.time

/-- `get_CV_segment_from_charge`, base.py:1454-1483 -/
def cvSegment (tol : Tol) (rows : List Row) : List Row :=
  match startTime rows (firstCV tol rows) with
  | none => []
  | some t => rows.filter (fun r => decide (r.time ≥ t))

/-- `get_CV_time`, base.py:1486-1498 -/
def cvTime (cv : List Row) : Option Rat :=
  match cv.head?, cv.getLast? with
  | some a, some b => some (b.time - a.time)
  | _, _ => none

/-- `get_CV_current`, base.py:1501-1513 -/
def cvCurrent (cv : List Row) : Option Rat := cv.getLast?.map Row.curr

/-- `get_CV_capacity`, base.py:1516-1528 -/
def cvCapacity (cv : List Row) : Option Rat :=
  match cv.head?, cv.getLast? with
  | some a, some b => some (b.cap - a.cap)
  | _, _ => none

/-- the comparison of `get_max_paused_over_threshold`, base.py:1446-1451, on times in seconds,
`none` for NaN. -/
def maxPaused (stamps : List (Option Rat)) (threshold : Rat) : Rat :=
  match maxN (diff stamps) with
  | none => 0
  | some m => if m > threshold then m else 0

/-- `time.mktime(t.timetuple())`, base.py:1441-1443, for the wall clock time `t` (seconds since
1970 as read from the stamp): `timetuple` drops the fraction of a second, and `mktime` takes the
rest as time of the machine that runs the code, `shift` seconds ahead of UTC at that moment.  A
stamp with a time zone carries `tm_isdst = 0`, for which `shift` is constant; a stamp without one
(Novonix, novonix.py:131) gets the shift in force at that wall clock time. -/
def machineSeconds (shift : Int → Int) (t : Rat) : Rat := ((t.floor - shift t.floor : Int) : Rat)

/-- `get_max_paused_over_threshold`, base.py:1426-1451, on a machine with the given clock; NaT
is `none` -/
def maxPausedOn (shift : Int → Int) (stamps : List (Option Rat)) (threshold : Rat) : Rat :=
  maxPaused (stamps.map (fun t => t.map (machineSeconds shift))) threshold

end Beep.Segments
