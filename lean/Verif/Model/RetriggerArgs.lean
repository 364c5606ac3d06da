import Verif.Model.Text
/-
The options of beep/utils/retrigger.py: what becomes of the text of an option (retrigger.py:6-19, 34-73, 135-138).
-/
namespace Beep.RetriggerArgs
open Beep

/-- a value of an option: docopt gives texts, flags and nothing; `ast.literal_eval` gives also integers, here by
their digits, and other Python values, which are opaque (retrigger.py:47-73) -/
inductive Val where
  | none
  | bool (b : Bool)
  | int (digits : Str)
  | text (s : Str)
  | other (s : Str)
  deriving DecidableEq, Repr

/-- a decimal integer as Python writes it: no leading zero (used by `ast.literal_eval`, retrigger.py:65) -/
def isInt : Str → Bool
  | [] => false
  | c :: s => (c :: s).all (fun d => '0' ≤ d ∧ d ≤ '9') && (c ≠ '0' || s.isEmpty)

/-- the characters between two equal quotes, if the text is a plain string literal: no escapes, no such quote in it,
no end of line (used by `ast.literal_eval`, retrigger.py:65) -/
def unquote : Str → Option Str
  | [] => none
  | q :: s =>
    if (q = '\'' ∨ q = '"') ∧ s.getLast? = some q ∧ s.dropLast.all (fun c => c ≠ q ∧ c ≠ '\\' ∧ c ≠ '\n' ∧ c ≠ '\r') then
      some s.dropLast
    else none

/-- `ast.literal_eval(x)` of a text; `none` when it raises `ValueError` or `SyntaxError`.  Decimal integers, plain string
literals and `None` are given; `rest` says what becomes of every other text (retrigger.py:64-69) -/
def literalEval (rest : Str → Option Val) (x : Str) : Option Val :=
  if isInt x then some (.int x)
  else match unquote x with
    | some s => some (.text s)
    | none => if x = "None".toList then some .none else rest x

/-- `_fix_boolean`, retrigger.py:54-60 -/
def fixBoolean : Val → Val
  | .text s => if s = "True".toList then .bool true else if s = "False".toList then .bool false else .text s
  | v => v

/-- `_parse_args`, retrigger.py:62-69; `ast.literal_eval` of what is not a text raises `ValueError` -/
def parseArg (rest : Str → Option Val) (x : Val) : Val :=
  match fixBoolean x with
  | .text s => (literalEval rest s).getD (.text s)
  | v => v

/-- `eval_args`, retrigger.py:47-73: `dict(zip(…))`, the names without their first two characters -/
def evalArgs (rest : Str → Option Val) (args : Dict Str Val) : Dict Str Val :=
  (args.map (fun kv => (kv.1.drop 2, parseArg rest kv.2))).foldl (fun d kv => Dict.set d kv.1 kv.2) []

/-- what docopt gives: the text of an option, or its default, which has the quotes in it (retrigger.py:12-18, 136) -/
def docopt (mode pre output : Option Str) : Dict Str Val :=
  [("--help".toList, .bool false), ("--version".toList, .bool false),
   ("--mode".toList, .text (mode.getD "'test'".toList)),
   ("--s3_prefix".toList, .text (pre.getD "'d3Batt/raw/arbin'".toList)),
   ("--s3_output".toList, .text (output.getD "'d3Batt/structure'".toList))]

/-- `parsed_args.name` with the arguments of a command line, retrigger.py:37-38, 136-138 -/
def option (rest : Str → Option Val) (mode pre output : Option Str) (name : Str) : Option Val :=
  Dict.get? (evalArgs rest (docopt mode pre output)) name

end Beep.RetriggerArgs
