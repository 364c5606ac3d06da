import Verif.Model.Dash
/-
File routing of `beep/structure/cli.py` and the part of Python's `re` its patterns use.
-/
namespace Beep.Routing
open Beep

/-- The regular expressions that occur in the file patterns.  `re` compiles them; only the
constructs in use are modelled (`re`, for the patterns of structure/cli.py:40-74). -/
inductive Rx where
  /-- literal text -/
  | lit (s : Str)
  /-- one character of a class, as `\d` -/
  | one (p : Char → Bool)
  /-- `c*` for a class `c`, as `.*` -/
  | many (p : Char → Bool)
  | seq (r s : Rx)
  | alt (r s : Rx)
  /-- `(?!r)` -/
  | notAhead (r : Rx)

/-- the rest of the text after a literal, if it begins with the literal
(`re`, for the patterns of structure/cli.py:40-74) -/
def stripLit : Str → Str → Option Str
  | [], t => some t
  | c :: s, d :: t => if c = d then stripLit s t else none
  | _ :: _, [] => none

/-- all the rests `c*` can leave (`re`, for the patterns of structure/cli.py:40-74) -/
def manyRests (p : Char → Bool) : Str → List Str
  | [] => [[]]
  | c :: t => if p c then (c :: t) :: manyRests p t else [c :: t]

/-- all the rests an expression can leave when matched at the beginning of the text.  `re` finds the
first of them by backtracking; only whether there is one is observed by `auto_load`
(`re`, for the patterns of structure/cli.py:40-74). -/
def rests : Rx → Str → List Str
  | .lit s, t => (stripLit s t).toList
  | .one p, t => match t with
    | c :: t => if p c then [t] else []
    | [] => []
  | .many p, t => manyRests p t
  | .seq r s, t => (rests r t).flatMap (rests s)
  | .alt r s, t => rests r t ++ rests s t
  | .notAhead r, t => if (rests r t).isEmpty then [t] else []

/-- `re.match(pattern, text)`: does the pattern match at the beginning of the text
(`re`, for the patterns of structure/cli.py:40-74) -/
def reMatch (r : Rx) (t : Str) : Bool := !(rests r t).isEmpty

/-- `.`: anything but a newline (`re`, for the patterns of structure/cli.py:40-74) -/
def dot (c : Char) : Bool := c != '\n'

/-- `.*` (`re`, for the patterns of structure/cli.py:40-74) -/
def dots : Rx := .many dot

/-- `.*lit.*ext`, the shape of several patterns
(`re`, for the patterns of structure/cli.py:40-74) -/
def containing (s ext : Str) : Rx := .seq dots (.seq (.lit s) (.seq dots (.lit ext)))

/-- `c{n}` (`re`, for the patterns of structure/cli.py:40-74) -/
def times (p : Char → Bool) : Nat → Rx
  | 0 => .lit []
  | n + 1 => .seq (.one p) (times p n)

/-- arbin_conversion.yaml:1 `.*CH.*\.csv` (used at structure/cli.py:40-74) -/
def arbin : Rx := containing "CH".toList ".csv".toList

/-- FastCharge_conversion.yaml:1 `.*FastCharge.*\.csv` (used at structure/cli.py:40-74) -/
def fastCharge : Rx := containing "FastCharge".toList ".csv".toList

/-- maccor_conversion.yaml:1 `.*\d{5,6}.*\d{3}`; `{5,6}` is five or six
(used at structure/cli.py:40-74) -/
def maccor (digit : Char → Bool) : Rx :=
  .seq dots (.seq (.alt (times digit 6) (times digit 5)) (.seq dots (times digit 3)))

/-- xTESLADIAG_conversion.yaml:1 `.*xTESLADIAG.*\.csv` (used at structure/cli.py:40-74) -/
def xTesladiag : Rx := containing "xTESLADIAG".toList ".csv".toList

/-- indigo_conversion.yaml:1 `.*\.h5` (used at structure/cli.py:40-74) -/
def indigo : Rx := .seq dots (.lit ".h5".toList)

/-- biologic_conversion.yaml:1 `^(?!.*(_CH)).*_C.*\.(txt|csv)`; `^` holds at the beginning of the text,
where `re.match` looks (used at structure/cli.py:40-74) -/
def biologic : Rx :=
  .seq (.notAhead (.seq dots (.lit "_CH".toList))) (.seq dots (.seq (.lit "_C".toList) (.seq dots
    (.seq (.lit ".".toList) (.alt (.lit "txt".toList) (.lit "csv".toList))))))

/-- neware_conversion.yaml:1 `.*neware.*\.csv` (used at structure/cli.py:40-74) -/
def neware : Rx := containing "neware".toList ".csv".toList

/-- battery_archive.py:56 `.*timeseries\.csv` -/
def batteryArchive : Rx := .seq dots (.lit "timeseries.csv".toList)

/-- the datapath classes `auto_load` can choose (structure/cli.py:40-74) -/
inductive Reader where
  | arbin | maccor | indigo | biologic | neware | batteryArchive
  deriving DecidableEq, Repr

/-- `auto_load` (cli.py:40-74): which class reads the file.  `digit` is the class `\d`, the decimal
digits of all scripts.  Reading the file itself is modelled elsewhere. -/
def autoLoad (digit : Char → Bool) (filename : Str) : Except Err Reader :=
  if reMatch arbin filename || reMatch fastCharge filename then .ok .arbin
  else if reMatch (maccor digit) filename || reMatch xTesladiag filename then .ok .maccor
  else if reMatch indigo filename then .ok .indigo
  else if reMatch biologic filename then .ok .biologic
  else if reMatch neware filename then .ok .neware
  else if reMatch batteryArchive filename then .ok .batteryArchive
  else .error .valueError

end Beep.Routing
