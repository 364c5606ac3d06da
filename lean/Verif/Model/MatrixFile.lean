import Verif.Model.Features
/-
Saving a feature matrix to a JSON file and loading it: `BEEPFeatureMatrix.as_dict`, `from_dict`,
`to_json_file` and `from_json_file` (beep/features/base.py lines 295-363).
-/
namespace Beep.MatrixFile
open Beep Text Features

/-- a value of a hyperparameter or of the metadata.  Numbers are given by how Python writes them.
Simplified: dictionaries, arrays and other objects are left out (features/base.py:64-73, 131-133). -/
inductive Value where
  | none
  | bool (b : Bool)
  | num (s : Str)
  | text (s : Str)
  | list (xs : List Value)
  | tuple (xs : List Value)

mutual
/-- what comes back when a value is written to JSON and read: JSON has no tuples, they come back as
lists (features/base.py:345, 363) -/
def json : Value → Value
  | .list xs => .list (jsonAll xs)
  | .tuple xs => .list (jsonAll xs)
  | v => v
/-- the same for the entries of a list (features/base.py:345, 363) -/
def jsonAll : List Value → List Value
  | [] => []
  | x :: xs => json x :: jsonAll xs
end

mutual
/-- `repr(v)`, used for the entries of lists and tuples (features/base.py:243).  Simplified: texts are
always in single quotes and nothing in them is escaped. -/
def repr : Value → Str
  | .none => "None".toList
  | .bool true => "True".toList
  | .bool false => "False".toList
  | .num s => s
  | .text s => '\'' :: s ++ ['\'']
  | .list xs => '[' :: join [',', ' '] (reprAll xs) ++ [']']
  | .tuple [x] => '(' :: repr x ++ [',', ')']
  | .tuple xs => '(' :: join [',', ' '] (reprAll xs) ++ [')']
/-- the entries of a list (features/base.py:243) -/
def reprAll : List Value → List Str
  | [] => []
  | x :: xs => repr x :: reprAll xs
end

/-- `f"{v}"` (features/base.py:243) -/
def render : Value → Str
  | .text s => s
  | v => repr v

/-- how names are made of hyperparameters, for a digest function (features/base.py:243-244) -/
def env (hash : Str → Str) : Env Value := ⟨render, hash⟩

/-- a featurizer of a class.  The module of the class is left out (features/base.py:125-126). -/
structure Made (V : Type) where
  cls : Str
  obj : Featurizer Value V (Dict Str Str) (Dict Str Value) Str

/-- what the matrix reads of a featurizer (features/base.py:214-231) -/
def source {V : Type} (b : Made V) : Source Value V :=
  ⟨b.cls, Dict.get? b.obj.paths "structured".toList, b.obj.hyperparameters, b.obj.features⟩

/-- a `BEEPFeatureMatrix` object (features/base.py:288-293) -/
structure FeatureMatrix (V : Type) where
  featurizers : List (Made V)
  matrix : Option (Matrix V)

/-- `BEEPFeatureMatrix(beepfeaturizers)` (features/base.py:211-293) -/
def build {V : Type} (hash : Str → Str) (bfs : List (Made V)) : Except Err (FeatureMatrix V) :=
  match matrix (env hash) (bfs.map source) with
  | .error e => .error e
  | .ok m => .ok ⟨bfs, m⟩

/-- the dictionary of a featurizer with its class (features/base.py:124-134) -/
structure SavedMade (V : Type) where
  cls : Str
  saved : Saved Value V (Dict Str Str) (Dict Str Value) Str

/-- the dictionary of a matrix.  The entry `matrix` is never read and is left out (features/base.py:304-312). -/
structure SavedMatrix (V : Type) where
  featurizers : List (SavedMade V)

/-- `[f.as_dict() for f in self.featurizers]` (features/base.py:310) -/
def asDicts {V : Type} : List (Made V) → Except Err (List (SavedMade V))
  | [] => .ok []
  | b :: bs =>
    match asDict b.obj with
    | .error e => .error e
    | .ok d =>
      match asDicts bs with
      | .error e => .error e
      | .ok ds => .ok (⟨b.cls, d⟩ :: ds)

/-- `BEEPFeatureMatrix.as_dict`; a matrix that is `None` has no `to_dict` (features/base.py:295-312) -/
def save {V : Type} (fm : FeatureMatrix V) : Except Err (SavedMatrix V) :=
  match asDicts fm.featurizers with
  | .error e => .error e
  | .ok ds =>
    match fm.matrix with
    | none => .error .attributeError
    | some _ => .ok ⟨ds⟩

/-- what is read from the file of a featurizer (features/base.py:345, 363).  The cells of the features,
the paths and the link are numbers and texts and come back as they were. -/
def fileMade {V : Type} (d : SavedMade V) : SavedMade V :=
  { d with saved := { d.saved with
      hyperparameters := d.saved.hyperparameters.map (fun kv => (kv.1, json kv.2))
      metadata := d.saved.metadata.map (fun kv => (kv.1, json kv.2)) } }

/-- what is read from the file that was written: `dumpfn` and `loadfn` (features/base.py:345, 363) -/
def throughFile {V : Type} (d : SavedMatrix V) : SavedMatrix V := ⟨d.featurizers.map fileMade⟩

/-- `MontyDecoder().process_decoded(f)` finds the class by its name and calls its `from_dict`
(features/base.py:326); `classes` gives the default hyperparameters of a class -/
def loadMade {V : Type} (classes : Str → Option (Dict Str Value)) (d : SavedMade V) : Except Err (Made V) :=
  match classes d.cls with
  | none => .error .attributeError
  | some defaults =>
    match fromDict [] [] defaults d.saved with
    | .error e => .error e
    | .ok bf => .ok ⟨d.cls, bf⟩

/-- the featurizers of the dictionary, in order (features/base.py:326) -/
def loadAll {V : Type} (classes : Str → Option (Dict Str Value)) : List (SavedMade V) → Except Err (List (Made V))
  | [] => .ok []
  | d :: ds =>
    match loadMade classes d with
    | .error e => .error e
    | .ok b =>
      match loadAll classes ds with
      | .error e => .error e
      | .ok bs => .ok (b :: bs)

/-- `BEEPFeatureMatrix.from_dict` (features/base.py:314-328) -/
def load {V : Type} (hash : Str → Str) (classes : Str → Option (Dict Str Value)) (d : SavedMatrix V) :
    Except Err (FeatureMatrix V) :=
  match loadAll classes d.featurizers with
  | .error e => .error e
  | .ok bs => build hash bs

/-- `to_json_file` and then `from_json_file` (features/base.py:330-363) -/
def saveAndLoad {V : Type} (hash : Str → Str) (classes : Str → Option (Dict Str Value)) (fm : FeatureMatrix V) :
    Except Err (FeatureMatrix V) :=
  match save fm with
  | .error e => .error e
  | .ok d => load hash classes (throughFile d)

end Beep.MatrixFile
