import Verif.Spec.AutoLoad
/-
Model of `auto_load_processed`, beep/structure/cli.py, and of `beep inspect`, beep/cmd.py.
-/
namespace Beep.AutoLoad
open Beep.Spec.AutoLoad

/-- `cls.from_json_file(filename)`, structure/base.py:313-337, for a file with a plain dictionary -/
def fromJsonFile {D : Type} (abspath : String → String) (cls : Cycler) (path : String)
    (paths : Dict String String) (rest : Except Err D) : Except Err (Data D) :=
  match rest with
  | .error e => .error e
  | .ok d => .ok ⟨cls, paths.set "structured" (abspath path), d⟩

/-- `auto_load_processed`, cli.py:77-119; `loaded` is the result of `loadfn(path)` -/
def autoLoadProcessed {D O : Type} (abspath : String → String) (path : String)
    (loaded : Except Err (Content D O)) : Except Err (Data D) :=
  match loaded with
  | .error e => .error e                                                      -- 107
  | .ok (.data d) => .ok { d with paths := d.paths.set "structured" path }    -- 118-119
  | .ok (.dict paths rest) => fromJsonFile abspath .arbin path paths rest     -- 110-112
  | .ok _ => .error .typeError                                                -- 114

/-- the text printed first by `inspect` for the object, and the object it reports on.  The text of
the heading of a featurizer is not a format string (cmd.py:1660-1762) -/
inductive Report (D O : Type)
  | data (heading : String) (d : Data D)
  | object (heading : String) (o : O)
  /-- an unknown class: only the dictionary is printed -/
  | dictionary (o : O)

/-- the branches on the class of the object, cmd.py:1660-1762.  A dictionary or plain value does not
reach them: it has no `as_dict` (1641). -/
def report {D O : Type} (file : String) : Content D O → Except Err (Report D O)
  | .data d => .ok (.data ("BEEP Datapath: " ++ file) d)
  | .featurizer o => .ok (.object "BEEP Featurizer: {file}" o)
  | .matrix o => .ok (.object ("BEEP Feature Matrix: " ++ file) o)
  | .experiment o => .ok (.object ("BEEP Linear Model Experiment: " ++ file) o)
  | .other o => .ok (.dictionary o)
  | .dict _ _ => .error .attributeError
  | .plain => .error .attributeError

/-- `o.as_dict()`, cmd.py:1641: no such attribute on built-in values; `asDict` says how it ends for
objects -/
def checked {D O : Type} (asDict : Content D O → Option Err) (loaded : Except Err (Content D O)) :
    Except Err (Content D O) :=
  match loaded with
  | .error e => .error e
  | .ok (.dict _ _) => .error .attributeError
  | .ok .plain => .error .attributeError
  | .ok c => match asDict c with
    | some e => .error e
    | none => .ok c

/-- the exceptions that lead to a second attempt, cmd.py:1642 -/
def caught : Err → Bool
  | .attributeError => true
  | .valueError => true
  | .keyError => true
  | _ => false

/-- `file.endswith(".json") or file.endswith(".json.gz")`, cmd.py:1645 -/
def isJson (file : String) : Bool :=
  (".json".toList.isSuffixOf file.toList) || (".json.gz".toList.isSuffixOf file.toList)

/-- `inspect`, cmd.py:1623-1762.  `raw` is the result of `auto_load(file)`. -/
def inspect {D O : Type} (abspath : String → String) (asDict : Content D O → Option Err)
    (path : String) (loaded : Except Err (Content D O)) (raw : Except Err (Data D)) :
    Except Err (Report D O) :=
  let file := abspath path                                                     -- 1636
  match checked asDict loaded with
  | .ok c => report file c
  | .error e =>
    if caught e then
      match (if isJson file then autoLoadProcessed abspath file loaded else raw) with   -- 1645-1658
      | .ok d => report file (.data d)
      | .error _ => .error .valueError
    else .error e

end Beep.AutoLoad
