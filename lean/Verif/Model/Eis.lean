import Verif.Model.Ingest
/-
Impedance spectra of Maccor cyclers (beep/structure/maccor.py, beep/structure/base_eis.py): reading
a spectrum, finding the spectra of a run, and writing a spectrum as a dictionary.
The reading of dates (`strptime`) and of the table (`read_csv`) are parameters.
-/
namespace Beep.Eis
open Beep Text Ingest

/-- what is kept of the header (structure/maccor.py:57-65) -/
structure Header where
  frequencySweep : Str
  method : Str
  filename : Str
  start : Str
  line8 : List Str
  deriving DecidableEq

/-- a spectrum (base_eis.py:32-39) -/
structure Spectrum (T : Type) where
  data : T
  header : Header
  deriving DecidableEq

/-- `s.split()` (CPython; used at structure/maccor.py:55): the words of a line, `cur` reversed -/
def wordsGo (cur : Str) : Str → List Str
  | [] => if cur.isEmpty then [] else [cur.reverse]
  | c :: cs =>
    if isWs c then (if cur.isEmpty then wordsGo [] cs else cur.reverse :: wordsGo [] cs)
    else wordsGo (c :: cur) cs

/-- `s.split()` (CPython; used at structure/maccor.py:55) -/
def words (s : Str) : List Str := wordsGo [] s

/-- `s.replace(old, new)` (CPython; used at structure/maccor.py:44) -/
def replaceStr (old new s : Str) : Str := join new (splitStr old s)

/-- `lines[i]` (structure/maccor.py:43-55) -/
def line (lines : List Str) (i : Nat) : Except Err Str :=
  match lines[i]? with
  | some l => .ok l
  | none => .error .indexError

/-- `s.split(label)[1].strip()` (structure/maccor.py:43, 49) -/
def after (label s : Str) : Except Err Str :=
  match (splitStr label s)[1]? with
  | some v => .ok (strip v)
  | none => .error .indexError

/-- structure/maccor.py:48-53: the start, read from the text "date,time" -/
def startOf (strptime : Str → Except Err Str) (l : Str) : Except Err Str :=
  match after "Start Date:".toList l with
  | .error e => .error e
  | .ok s =>
    match unpack2 "Start Time:".toList s with
    | .error e => .error e
    | .ok (date, time) => strptime (join [','] [strip date, strip time])

/-- structure/maccor.py:42-65: the header, in the order in which it is read -/
def header (strptime : Str → Except Err Str) (lines : List Str) : Except Err Header := do
  let l1 ← line lines 1
  let sweep ← after "Frequency Sweep:".toList l1
  let method ← line lines 2
  let filename ← line lines 3
  let l6 ← line lines 6
  let start ← startOf strptime l6
  let l8 ← line lines 8
  .ok { frequencySweep := replaceStr "Circut".toList "Circuit".toList sweep, method, filename, start,
        line8 := words l8 }

/-- `MaccorEIS.from_file`, structure/maccor.py:30-69, from the lines of the file -/
def fromFile {T : Type} (strptime : Str → Except Err Str) (readCsv : List Str → Except Err T)
    (lines : List Str) : Except Err (Spectrum T) := do
  let h ← header strptime lines
  let data ← readCsv (lines.drop 10)
  .ok { data, header := h }

/-! ### Finding spectra -/

/-- what a pattern is made of (CPython `fnmatch`; used at structure/maccor.py:162) -/
inductive Tok where
  | lit (c : Char)
  | one
  | star
  | set (neg : Bool) (ranges : List (Char × Char))
  deriving DecidableEq

/-- the ranges of a class (CPython `fnmatch`; used at structure/maccor.py:162) -/
def ranges : Str → List (Char × Char)
  | a :: '-' :: b :: cs => (a, b) :: ranges cs
  | a :: cs => (a, a) :: ranges cs
  | [] => []

/-- the place of the bracket that closes a class (CPython `fnmatch`; used at structure/maccor.py:162) -/
def closing (cs : Str) : Option Nat :=
  let i := if cs.head? = some '!' then 1 else 0
  let j := if cs[i]? = some ']' then i + 1 else i
  ((cs.drop j).findIdx? (· = ']')).map (· + j)

/-- a class from its body (CPython `fnmatch`; used at structure/maccor.py:162) -/
def classTok : Str → Tok
  | '!' :: cs => .set true (ranges cs)
  | cs => .set false (ranges cs)

/-- the parts of a pattern (CPython `fnmatch.translate`; used at structure/maccor.py:162); `k`
characters have been used already -/
def toks : Nat → Str → List Tok
  | _, [] => []
  | k + 1, _ :: cs => toks k cs
  | 0, c :: cs =>
    if c = '*' then .star :: toks 0 cs
    else if c = '?' then .one :: toks 0 cs
    else if c = '[' then
      match closing cs with
      | none => .lit '[' :: toks 0 cs
      | some j => classTok (cs.take j) :: toks (j + 1) cs
    else .lit c :: toks 0 cs

/-- whether a part that stands for one character fits (CPython `fnmatch`; used at structure/maccor.py:162) -/
def Tok.hits (t : Tok) (c : Char) : Bool :=
  match t with
  | .lit d => c = d
  | .one => true
  | .star => false
  | .set neg rs => rs.any (fun r => r.1 ≤ c && c ≤ r.2) != neg

/-- whether a name fits a pattern (CPython `fnmatch`; used at structure/maccor.py:162) -/
def fits : List Tok → Str → Bool
  | [], s => s.isEmpty
  | .star :: ts, s => (List.range (s.length + 1)).any (fun k => fits ts (s.drop k))
  | _ :: _, [] => false
  | t :: ts, c :: cs => t.hits c && fits ts cs

/-- one part of a path: `*` and the like do not find hidden files
(CPython `glob`; used at structure/maccor.py:162) -/
def partFits (pat name : Str) : Bool :=
  (pat.head? = some '.' || name.head? ≠ some '.') && fits (toks 0 pat) name

/-- all parts of a path (CPython `glob`; used at structure/maccor.py:162) -/
def partsFit : List Str → List Str → Bool
  | [], [] => true
  | p :: ps, n :: ns => partFits p n && partsFit ps ns
  | _, _ => false

/-- `glob(pattern)` among the files, which are spelled as the pattern spells their directory; the order is
that of the directory (CPython; used at structure/maccor.py:162) -/
def glob (pattern : Str) (files : List Str) : List Str :=
  files.filter (fun p => partsFit (splitC '/' pattern) (splitC '/' p))

/-- `raw.rsplit(".", 1)` (structure/maccor.py:161) -/
def rsplitDot (s : Str) : List Str :=
  match split1 '.' s.reverse with
  | (_, none) => [s]
  | (e, some r) => [r.reverse, e.reverse]

/-- structure/maccor.py:161: the pattern of the spectra of a run -/
def eisPattern (raw : Str) : Str := join ".*.".toList (rsplitDot raw)

/-! ### Loading -/

/-- the argument `paths` of `load_eis` (structure/maccor.py:140-150): nothing, a list, or the single text
the documentation allows -/
inductive Paths where
  | none
  | list (l : List Str)
  | text (s : Str)

/-- what a loop over the argument sees (structure/maccor.py:158, 165): a text is a sequence of
characters; nothing, no paths and an empty text all mean "look for them" -/
def Paths.items : Paths → Option (List Str)
  | .none => .none
  | .list l => if l.isEmpty then .none else some l
  | .text s => if s.isEmpty then .none else some (s.map (fun c => [c]))

/-- the part of a datapath that `load_eis` changes (base_eis.py:97-99, structure/maccor.py:169-170) -/
structure State (T : Type) where
  eis : Option (List (Spectrum T))
  eisPaths : Option (List Str)

/-- structure/maccor.py:166: opening and reading one file -/
def readPath {T : Type} (strptime : Str → Except Err Str) (readCsv : List Str → Except Err T)
    (disk : List (Str × List Str)) (p : Str) : Except Err (Spectrum T) :=
  match disk.find? (fun f => f.1 = p) with
  | none => .error .fileNotFound
  | some f => fromFile strptime readCsv f.2

/-- structure/maccor.py:164-167: the loop over the paths -/
def readAll {T : Type} (strptime : Str → Except Err Str) (readCsv : List Str → Except Err T)
    (disk : List (Str × List Str)) : List Str → Except Err (List (Spectrum T))
  | [] => .ok []
  | p :: ps =>
    match readPath strptime readCsv disk p with
    | .error e => .error e
    | .ok s =>
      match readAll strptime readCsv disk ps with
      | .error e => .error e
      | .ok ss => .ok (s :: ss)

/-- structure/maccor.py:158-162: the paths to read -/
def chosen (disk : List (Str × List Str)) (raw : Str) (paths : Paths) : List Str :=
  match paths.items with
  | .none => glob (eisPattern raw) (disk.map Prod.fst)
  | some l => l

/-- `MaccorDatapath.load_eis`, structure/maccor.py:140-170: the datapath afterwards and the error
raised, if any -/
def loadEis {T : Type} (strptime : Str → Except Err Str) (readCsv : List Str → Except Err T)
    (disk : List (Str × List Str)) (raw : Str) (st : State T) (paths : Paths) : State T × Option Err :=
  match readAll strptime readCsv disk (chosen disk raw paths) with
  | .error e => (st, some e)
  | .ok ss => ({ eis := some ss, eisPaths := some (chosen disk raw paths) }, .none)

/-! ### Dictionaries -/

/-- the metadata of a spectrum as an object (base_eis.py:35-39): a dictionary, as Maccor spectra have, or a data
frame, as documented -/
inductive MetaObj (D F : Type) where
  | dict (d : D)
  | frame (f : F)

/-- `EIS.as_dict`, base_eis.py:53-65, data and metadata: a dictionary has no `to_dict` -/
def asDict {T D F : Type} (data : T) (meta' : MetaObj D F) : Except Err (T × F) :=
  match meta' with
  | .dict _ => .error .attributeError
  | .frame f => .ok (data, f)

/-- the metadata a Maccor spectrum is made with (structure/maccor.py:57-69): a dictionary -/
def metaOf {T F : Type} (s : Spectrum T) : MetaObj Header F := .dict s.header

end Beep.Eis
