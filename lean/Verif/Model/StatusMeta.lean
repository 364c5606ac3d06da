import Verif.Model.MaccorProcedure
/-
The metadata of the status file of every command: beep/cmd.py:127-145 and the options of the base command
(cmd.py:176-246).  The entries of a command's own status are opaque values.
-/
namespace Beep.StatusMeta
open Beep
open Beep.MaccorProcedure (digit two)

/-- what `datetime.datetime.utcnow()` gives (cmd.py:140) -/
structure Utc where
  year : Nat
  month : Nat
  day : Nat
  hour : Nat
  minute : Nat
  second : Nat
  microsecond : Nat
  deriving DecidableEq, Repr

/-- `strftime("%Y-%m-%d %H:%M:%S")`, for years of four digits (cmd.py:140) -/
def stamp (u : Utc) : Str :=
  two (u.year / 100) ++ two (u.year % 100) ++ ['-'] ++ two u.month ++ ['-'] ++ two u.day ++ [' '] ++
    two u.hour ++ [':'] ++ two u.minute ++ [':'] ++ two u.second

/-- a value of the metadata (cmd.py:138-143) -/
inductive Info where
  | null
  | int (i : Int)
  | text (s : Str)
  | texts (l : List Str)
  deriving DecidableEq, Repr

/-- the options of the base command that are kept for the subcommand (cmd.py:235-240): `--run-id` once, `--tags`
any number of times (a tuple, `()` without), `--output-status-json` once -/
structure Context where
  runId : Option Int
  tags : List Str
  outputStatusJson : Option Str
  deriving DecidableEq, Repr

/-- the `metadata` dictionary; `"beep_verison"` is spelled as in the code (cmd.py:138-143) -/
def metadata (version : Str) (now : Utc) (runId : Option Int) (tags : List Str) : Dict Str Info :=
  [("beep_verison".toList, .text version),
   ("op_datetime_utc".toList, .text (stamp now)),
   ("run_id".toList, match runId with
     | none => .null
     | some i => .int i),
   ("tags".toList, .texts tags)]

/-- an entry of a status: the command's own, or the metadata (cmd.py:127-145) -/
inductive Entry (V : Type) where
  | own (v : V)
  | info (m : Dict Str Info)

/-- `add_metadata_to_status_json` (cmd.py:127-145) -/
def addMetadata {V : Type} (version : Str) (now : Utc) (status : Dict Str (Entry V)) (runId : Option Int)
    (tags : List Str) : Dict Str (Entry V) :=
  Dict.set status "metadata".toList (.info (metadata version now runId tags))

/-- the commands that write a status (cmd.py:370-638, 707-993, 1150-1356, 1391-1509, 1528-1611) -/
inductive Command where
  | structure_ | featurize | train | predict | protocol
  deriving DecidableEq, Repr

/-- the entries of the command's own status; all later assignments are to these (cmd.py:537-540, 832-836,
1279-1295, 1443-1457, 1570-1579) -/
def names : Command → List Str
  | .structure_ => ["op_type".toList, "files".toList]
  | .featurize => ["op_type".toList, "feature_matrix".toList, "files".toList]
  | .train => ["op_type".toList, "files".toList, "model_results".toList, "walltime".toList,
      "trained_model".toList, "traceback".toList]
  | .predict => ["op_type".toList, "files".toList, "walltime".toList, "predictions".toList, "traceback".toList]
  | .protocol => ["op_type".toList, "files".toList, "walltime".toList, "protocol".toList, "traceback".toList]

/-- the end of every command that is not left before: the file written, if any, and what is in it; `if osj` is
false of an empty name (cmd.py:633-638, 989-993, 1352-1356, 1505-1509, 1607-1611) -/
def finish {V : Type} (version : Str) (now : Utc) (ctx : Context) (own : Dict Str V) :
    Option (Str × Dict Str (Entry V)) :=
  let status := addMetadata version now (own.map (fun kv => (kv.1, Entry.own kv.2))) ctx.runId ctx.tags
  match ctx.outputStatusJson with
  | none => none
  | some osj => if osj = [] then none else some (osj, status)

end Beep.StatusMeta
