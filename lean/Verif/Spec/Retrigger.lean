import Verif.Model.Retrigger
/-
Specification vocabulary for queueing raw files once more (C158).
-/
namespace Beep.Spec.Retrigger
open Beep Beep.Retrigger

/-- the structured file of a raw file: in the output folder, named like the raw file up to its first dot -/
def StructuredAs (output key t : Str) : Prop :=
  ∃ dir file stem rest, (key = file ∧ dir = [] ∨ key = dir ++ '/' :: file) ∧ '/' ∉ file ∧ file = stem ++ rest ∧
    '.' ∉ stem ∧ (rest = [] ∨ ∃ r, rest = '.' :: r) ∧ t = output ++ '/' :: (stem ++ "_structure.json".toList)

/-- a raw file at the location that is to be looked at: more than a kilobyte, of the project, not complete -/
structure Candidate (pre : Str) (o : Obj) : Prop where
  place : pre <+: o.key
  size : 1000 < o.size
  project : "PredictionDiagnostics".toList <:+: o.key
  running : ¬ "Complete".toList <:+: o.key

/-- the raw file has a structured file that is at most six hours old -/
def Fresh (now : Rat) (outBucket : List Obj) (output : Str) (o : Obj) : Prop :=
  ∃ s ∈ outBucket, StructuredAs output o.key s.key ∧ now - 21600 ≤ s.modified

/-- the event describes the object -/
structure Describes (e : Event) (o : Obj) : Prop where
  filename : e.filename = o.key
  bucket : e.bucket = "beep-input-data-stage".toList
  size : e.size = o.size
  hash : ∀ h, '"' ∉ h → o.etag = '"' :: (h ++ ['"']) → e.hash = h

/-- the objects of a bucket have different keys -/
def Distinct (bucket : List Obj) : Prop := (bucket.map Obj.key).Nodup

/-- how many objects there are at a location -/
def count (bucket : List Obj) (pre : Str) : Nat := bucket.countP (fun o => decide (pre <+: o.key))

end Beep.Spec.Retrigger
