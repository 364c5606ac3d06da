import Verif.Model.Py
/-
Vocabulary for files that hold processed data: what a JSON file may hold.  The objects are left
abstract.
-/
namespace Beep.Spec.AutoLoad

/-- the classes of cycler data -/
inductive Cycler | arbin | maccor | neware | indigo | biologic | batteryArchive | novonix
  deriving DecidableEq, Repr

/-- cycler data: their class, the files they came from, and everything else -/
structure Data (D : Type) where
  cycler : Cycler
  paths : Dict String String
  rest : D
  deriving DecidableEq, Repr

/-- what the decoder makes of a file -/
inductive Content (D O : Type)
  /-- cycler data with their class -/
  | data (d : Data D)
  /-- a plain dictionary, as in files of versions without classes: its entry "paths" (empty if it
  has none) and what the reader of cycler data makes of the other entries -/
  | dict (paths : Dict String String) (rest : Except Err D)
  | featurizer (o : O)
  | matrix (o : O)
  | experiment (o : O)
  /-- an object of another class -/
  | other (o : O)
  /-- a list, a number, a text -/
  | plain

/-- a name with the ending of a JSON file -/
def JsonName (file : String) : Prop :=
  ∃ s : List Char, file.toList = s ++ ".json".toList ∨ file.toList = s ++ ".json.gz".toList

/-- the files of the data are as before, except that the processed file is `path` -/
def Relocated (before after : Dict String String) (path : String) : Prop :=
  after.get? "structured" = some path ∧ ∀ k, k ≠ "structured" → after.get? k = before.get? k

/-- what is expected at the top of a report on a file with the given contents: the kind of object and
the file -/
def Heading {D O : Type} (file : String) : Content D O → String → Prop
  | .data _, h => h = "BEEP Datapath: " ++ file
  | .featurizer _, h => h = "BEEP Featurizer: " ++ file
  | .matrix _, h => h = "BEEP Feature Matrix: " ++ file
  | .experiment _, h => h = "BEEP Linear Model Experiment: " ++ file
  | _, _ => True

end Beep.Spec.AutoLoad
