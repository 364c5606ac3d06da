import Verif.Model.Generate
/-
The command `beep protocol` of beep/cmd.py.
Simplifications: times, log lines and metadata of the status are left out; directories are those named by
`World.isDir` and the subdirectories are made without an exception; the file with the names of the runs can
always be written.
-/
namespace Beep.ProtocolCmd
open Beep
open Beep.Batch (Files Exc)
open Beep.Generate (Row)

/-- the status: whether each listed file was generated, in order (cmd.py 1568-1577, 1597-1601) -/
structure Status where
  csv : Str
  csvMd5 : Str
  protocol : Dict Str Bool := []
  traceback : Option Exc := none
  deriving DecidableEq, Repr

/-- what a file holds (cmd.py:1528-1611) -/
inductive Content (P : Type) where
  | table (text : Str)
  | protocol (p : P)
  | names (l : List Str)
  | status (s : Status)
  | other

/-- the libraries and the operating system (cmd.py:1528-1611) -/
structure World (P G : Type) where
  env : Generate.Env P G
  /-- `os.path.abspath` -/
  abspath : Str → Str
  /-- does the directory exist -/
  isDir : Str → Bool
  /-- cmd.py 148-161 `md5sum` of a file's content -/
  md5 : Content P → Str
  /-- `pd.read_csv` -/
  read : Content P → Except Exc (List Row)
  /-- where the names of the runs are written, with the time in it (generate_protocol.py 214-220) -/
  namesFile : Str → Str → Str

/-- files written one after the other (cmd.py:1528-1611) -/
def writeAll {P : Type} (fs : Files (Content P)) (l : List (Str × P)) : Files (Content P) :=
  l.foldl (fun fs x => Batch.Files.write fs x.1 (.protocol x.2)) fs

/-- generate_protocol.py 88-242 with its effect on the files: what it returns or the exception -/
def generateFiles {P G : Type} (w : World P G) (csv dir : Str) (c : Content P) (fs : Files (Content P)) :
    Files (Content P) × Except Exc (Generate.State P) :=
  match w.read c with
  | .error e => (fs, .error e)
  | .ok rows => match Generate.loop w.env dir 0 rows {} with
    | (s, some e) => (writeAll fs s.written, .error e)
    | (s, none) => (Batch.Files.write (writeAll fs s.written) (w.namesFile dir csv) (.names s.names), .ok s)

/-- `d[name] = {"generated": b}` for each of the names (cmd.py 1597-1601) -/
def entries (d : Dict Str Bool) (names : List Str) (b : Bool) : Dict Str Bool :=
  names.foldl (fun d n => Dict.set d n b) d

/-- cmd.py 1562: the output directory -/
def outDir {P G : Type} (w : World P G) (cwd : Str) (given : Option Str) : Str :=
  match given with
  | some o => if o = [] then cwd else w.abspath o
  | none => cwd

/-- cmd.py 1580-1595: the output files and the traceback.  `failures` is never assigned after its
initialisation: what the generator returns is bound to another variable. -/
def outcome {P : Type} (failures : List Str) (r : Except Exc (Generate.State P)) : List Str × Option Exc :=
  match r with
  | .error e => ([], some e)
  | .ok s => (s.generated,
      if !s.clean || !failures.isEmpty then some (Exc.other "ProtocolException".toList) else none)

/-- cmd.py 1606-1609: the status file, if asked for -/
def report {P : Type} (statusFile : Option Str) (fs : Files (Content P)) (st : Status) : Files (Content P) :=
  match statusFile with
  | some p => Batch.Files.write fs p (.status st)
  | none => fs

/-- cmd.py 1568-1601: the status of a run -/
def statusOf {P G : Type} (w : World P G) (csv : Str) (c : Content P) (r : Except Exc (Generate.State P)) : Status :=
  ⟨csv, w.md5 c, entries (entries [] (outcome [] r).1 true) [] false, (outcome [] r).2⟩

/-- `protocol` (cmd.py 1528-1611) -/
def protocol {P G : Type} (w : World P G) (cwd : Str) (statusFile : Option Str) (csvFile : Str)
    (outputDir : Option Str) (fs : Files (Content P)) : Files (Content P) × Except Err Status :=
  match fs (w.abspath csvFile) with
  | none => (fs, .error .fileNotFound)
  | some c =>
    if w.isDir (outDir w cwd outputDir) then
      let g := generateFiles w (w.abspath csvFile) (outDir w cwd outputDir) c fs
      (report statusFile g.1 (statusOf w (w.abspath csvFile) c g.2), .ok (statusOf w (w.abspath csvFile) c g.2))
    else (fs, .error .fileNotFound)

end Beep.ProtocolCmd
