import Verif.Model.Text
/-
Model of beep/utils/retrigger.py: queueing raw files for processing once more.
-/
namespace Beep.Retrigger
open Beep Beep.Text

/-- an object of a bucket, as `list_objects_v2` describes it (retrigger.py:85-110): key, size, entity tag, and the
time of the last change in seconds -/
structure Obj where
  key : Str
  size : Nat
  etag : Str
  modified : Rat
  deriving DecidableEq, Repr

/-- the data of an event, retrigger.py:120-125 -/
structure Event where
  filename : Str
  bucket : Str
  size : Nat
  hash : Str
  deriving DecidableEq, Repr

/-- `s3.list_objects_v2(Bucket=.., Prefix=..)` (AWS; used at retrigger.py:85, 106): at most 1000 objects in one
answer; `bucket` holds all objects in the order of their keys -/
def listing (bucket : List Obj) (pre : Str) : List Obj :=
  (bucket.filter (fun o => pre.isPrefixOf o.key)).take 1000

/-- `get_structure_name`, retrigger.py:76-79 -/
def structureName (key : Str) : Str :=
  (splitC '.' ((splitC '/' key).getLast?.getD [])).head?.getD [] ++ "_structure.json".toList

/-- retrigger.py:87-97: large objects of the project, without the letter x, not complete -/
def wanted (o : Obj) : Bool :=
  decide (o.size > 1000) && containsSub "PredictionDiagnostics".toList o.key && !containsSub "x".toList o.key &&
    !containsSub "Complete".toList o.key

/-- retrigger.py:101, 106-114: there is not exactly one structured object, or it is older than six hours -/
def isOld (now : Rat) (outBucket : List Obj) (output : Str) (o : Obj) : Bool :=
  match listing outBucket (output ++ "/".toList ++ structureName o.key) with
  | [s] => decide (s.modified < now - 6 * 3600)
  | _ => true

/-- `s.strip('"')` (CPython; used at retrigger.py:124) -/
def unquote (s : Str) : Str :=
  ((s.dropWhile (· = '"')).reverse.dropWhile (· = '"')).reverse

/-- retrigger.py:120-125 -/
def eventOf (o : Obj) : Event :=
  { filename := o.key, bucket := "beep-input-data-stage".toList, size := o.size, hash := unquote o.etag }

/-- `scan`, retrigger.py:82-128, with the events in the order in which they are put.  An answer without objects
has no "Contents". -/
def scan (now : Rat) (inBucket outBucket : List Obj) (pre output : Str) : Except Err (List Event) :=
  match listing inBucket pre with
  | [] => .error .keyError
  | os => .ok (((os.filter wanted).filter (isOld now outBucket output)).reverse.map eventOf)

/-- the names that `beep.utils` offers, beep/utils/__init__.py:1-66 -/
def utilsNames : List String :=
  ["os", "hashlib", "json", "OrderedDict", "MaccorSplice", "get", "set_with", "unset", "merge", "DashOrderedDict",
   "hash_file", "os_format"]

/-- the modules of the package beep/utils, which `from beep.utils import` finds besides the names in `__init__.py:14-26` (a
directory listing) -/
def utilsModules : List String := ["memprof", "project_transfer", "retrigger", "s3", "splice", "tests", "waveform"]

/-- `from beep.utils import name` (retrigger.py:28); the `ImportError` is represented as a missing attribute -/
def importName (name : String) : Except Err Unit :=
  if name ∈ utilsNames ∨ name ∈ utilsModules then .ok () else .error .attributeError

/-- the script, retrigger.py:21-28, 131-134 -/
def main (now : Rat) (inBucket outBucket : List Obj) (pre output : Str) : Except Err (List Event) := do
  importName "KinesisEvents"
  scan now inBucket outBucket pre output

end Beep.Retrigger
