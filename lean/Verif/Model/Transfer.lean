import Verif.Model.Ingest
/-
Files from S3: `beep/cmd.py` (fetching for `beep structure`), `beep/utils/project_transfer.py`.
-/
namespace Beep.Transfer
open Beep Ingest

/-! ### fetching -/

/-- one pass of the loop of cmd.py:468-479: the object is stored under its base name -/
def fetchOne {C : Type} (dir : Str) (bucket : Str → Option C) (fs : Batch.Files C) (key : Str) : Batch.Files C :=
  match bucket key with
  | none => fs
  | some c => fs.write (Batch.join dir (Batch.basename key)) c

/-- cmd.py:467-480: the local names and the files on disk -/
def fetch {C : Type} (dir : Str) (bucket : Str → Option C) (keys : List Str) (fs : Batch.Files C) : List Str × Batch.Files C :=
  (keys.map (fun k => Batch.join dir (Batch.basename k)), keys.foldl (fetchOne dir bucket) fs)

/-- the split of the arguments into local files and keys, cmd.py:447-464, for arguments without `*` -/
def matchDirect (keys : List Str) (files : List Str) : List Str × List Str :=
  (files.filter (fun f => !keys.contains f), files.filter (fun f => keys.contains f))

/-! ### project transfer -/

/-- `s.replace(a, b)` for a non-empty `a` (project_transfer.py:51-105) -/
def replaceStr (a b s : Str) : Str := Text.join b (splitStr a s)

/-- `get_list_files`, project_transfer.py:42-51: keys that contain prefix and project and none of the
excluded strings -/
def listFiles (objects : List Str) (pref project : Str) (excluded : List Str) : List Str :=
  (objects.filter (fun k => containsSub (Batch.join pref project) k)).filter
    (fun k => excluded.all (fun e => !containsSub e k))

/-- the first line with its line end, and the rest (project_transfer.py:51-105) -/
def firstLine : Str → Str × Str
  | [] => ([], [])
  | c :: s => if c = '\n' then ([c], s) else (c :: (firstLine s).1, (firstLine s).2)

/-- the new name of an object, project_transfer.py:84, 106-108; for keys without `//` -/
def newName (input output key : Str) : Str :=
  Batch.join (key.take (key.length - (Batch.basename key).length - 1)) (replaceStr input output (Batch.basename key))

/-- the text the new file should hold (project_transfer.py:51-105) -/
def modified (input output content : Str) : Str :=
  replaceStr input output (firstLine content).1 ++ (firstLine content).2

/-- `download_and_modify` for one object, project_transfer.py:83-111: the new name, and the contents
that are uploaded.  The new file is uploaded while it is still open: of `n` characters written
`flushed n` have reached the disk. -/
def transfer (flushed : Nat → Nat) (input output key content : Str) : Str × Str :=
  let t := modified input output content
  (newName input output key, t.take (flushed t.length))

end Beep.Transfer
