import Verif.Model.FixedWidth
import Verif.Model.MaccorToBiologic
/-
Model of Biologic settings files (*.mps): `Settings.mps_text_to_schedule_dict` and
`Settings.to_file`, beep/protocol/biologic.py 40-181, `_get_seqs` of
beep/protocol/biologic_mb_to_maccor.py 114-133, and the file that the conversion of a Maccor
procedure writes, beep/protocol/maccor_to_biologic_mb.py 62-94 and 478-527.  The tables are those of
Model/FixedWidth.  A technique number is a text without dots and brackets, so that the paths given
to pydash name it (simplification).
-/
namespace Beep.Settings
open Beep Beep.Text Beep.FixedWidth

/-- `str(n)` of a natural number (CPython; used at biologic.py:88-129) -/
def digits (n : Nat) : Str := Nat.toDigits 10 n

/-- `str(n)` of an integer (CPython; used at maccor_to_biologic_mb.py:504) -/
def intText (n : Int) : Str := if n < 0 then '-' :: digits n.natAbs else digits n.natAbs

/-- a character in front of the first piece (CPython `re.split`; used at biologic.py:64) -/
def consHead (c : Char) : List Str → List Str
  | [] => [[c]]
  | p :: ps => (c :: p) :: ps

/-- `re.split(r"\r?\n|\r\n?", text)`, biologic.py:64 -/
def splitLines : Str → List Str
  | [] => [[]]
  | '\r' :: '\n' :: cs => [] :: splitLines cs
  | c :: cs => if c = '\r' ∨ c = '\n' then [] :: splitLines cs else consHead c (splitLines cs)

/-- `s.split(sep, 1)` for a separator that is not empty (CPython; used at biologic.py:80-91) -/
def cut (sep : Str) : Str → Str × Option Str
  | [] => ([], none)
  | c :: cs => if sep.isPrefixOf (c :: cs) then ([], some ((c :: cs).drop sep.length)) else (c :: (cut sep cs).1, (cut sep cs).2)

/-- one technique of the document: `Type` and `Step`, biologic.py:107-131 -/
structure Technique where
  type : Str
  steps : Dict Nat (Dict Str Str)
  deriving DecidableEq, Repr

/-- the document: `Metadata` and `Technique`, biologic.py:98-131 -/
structure Doc where
  metadata : Dict Str (Option Str)
  techniques : Dict Str Technique
  deriving DecidableEq, Repr

/-- `technique_lines`, biologic.py:67-69 -/
def techniqueLines (ls : List Str) : List Nat :=
  (List.range ls.length).filter (fun i => containsSub "Technique".toList (ls.getD i []))

/-- `technique_num`, biologic.py:72 -/
def numberOf (line : Str) : Str := strip ((splitC ':' line).getLast?.getD [])

/-- one entry of `metadata`, biologic.py:85-97; an entry that is no pair makes `OrderedDict` raise -/
def metaEntry (i : Nat) (line : Str) : Except Err (Str × Option Str) :=
  if ':' ∈ line then
    if containsSub "Technique".toList line then
      let key := match cut " : ".toList line with
        | (a, some b) => a ++ '_' :: b
        | (a, none) => a
      .ok (key, some (strip ((split1 ':' line).2.getD [])))
    else match cut " : ".toList line with
      | (k, some v) => .ok (k, some v)
      | (_, none) => .error .valueError
  else if line = [] then .ok ("line".toList ++ digits i, some "blank".toList)
  else .ok (line, none)

/-- the loop over `lines_to_parse`, biologic.py:84-97 -/
def metaEntries (ls : List Str) : List Nat → Except Err (List (Str × Option Str))
  | [] => .ok []
  | i :: is => do
    let e ← metaEntry i (ls.getD i [])
    let es ← metaEntries ls is
    return e :: es

/-- `OrderedDict(metadata)`, biologic.py:98 -/
def ofPairs (es : List (Str × Option Str)) : Dict Str (Option Str) := es.foldl (fun d e => d.set e.1 e.2) []

/-- one technique, biologic.py:102-131: `k` is the line of its heading, `len` the `step_entry_length` -/
def readTechnique (w len : Nat) (ls : List Str) (ts : Dict Str Technique) (k : Nat) : Except Err (Dict Str Technique) :=
  let n := numberOf (ls.getD k [])
  match ls[k + 1]? with
  | none => .error .indexError
  | some ty =>
    let rows := (ls.take (k + 1 + len)).drop (k + 2)
    if rows = [] then .error .valueError
    else if maxLen rows / w = 0 then .error .indexError
    else
      let old := match ts.get? n with
        | some t => t.steps
        | none => []
      let table := readTable w rows
      let steps := ((List.range' 1 table.length).zip table).foldl (fun d e => d.set e.1 e.2) old
      .ok (ts.set n { type := ty, steps := steps })

/-- the loop over the techniques, biologic.py:102-131 -/
def readTechniques (w len : Nat) (ls : List Str) : Dict Str Technique → List Nat → Except Err (Dict Str Technique)
  | ts, [] => .ok ts
  | ts, k :: ks => do
    let ts' ← readTechnique w len ls ts k
    readTechniques w len ls ts' ks

/-- `lines_to_parse`, biologic.py:71-81: the loop starts from all lines each time, so that only the lines of
the last technique are left out -/
def keptLines (len : Nat) (ls : List Str) (last : Nat) : List Nat :=
  (List.range ls.length).filter (fun i => !(decide (last + 1 ≤ i) && decide (i < last + 1 + len)))

/-- `mps_text_to_schedule_dict` after the split into lines, biologic.py:66-133 -/
def readLines (w len : Nat) (ls : List Str) : Except Err Doc :=
  let heads := techniqueLines ls
  match heads.getLast? with
  | none => .error .unboundLocal
  | some last => do
    let es ← metaEntries ls (keptLines len ls last)
    let ts ← readTechniques w len ls [] heads
    return { metadata := ofPairs es, techniques := ts }

/-- `mps_text_to_schedule_dict`, biologic.py:61-133 -/
def readText (w len : Nat) (text : Str) : Except Err Doc := readLines w len (splitLines text)

/-- the copy of the document that `to_file` works on: `data.unset` of line 177 may remove a part,
biologic.py:149-177 -/
structure Data where
  metadata : Option (Dict Str (Option Str))
  techniques : Option (Dict Str Technique)
  deriving DecidableEq, Repr

/-- `data.unset(data["Metadata"][meta_key])`, biologic.py:177: the value is taken for a path.  Simplification:
longer paths into the document are not modelled. -/
def unset (v : Option Str) (d : Data) : Data :=
  if v = some "Metadata".toList then { d with metadata := none }
  else if v = some "Technique".toList then { d with techniques := none }
  else d

/-- the lines of a technique below its heading, biologic.py:159-166 -/
def techniqueRows (w : Nat) (n : Str) : Option (Dict Str Technique) → Except Err (List Str)
  | none => .error .keyError
  | some ts => match ts.get? n with
    | none => .error .keyError
    | some t => match t.steps.get? 1 with
      | none => .error .keyError
      | some first => do
        let rows ← settingsRows w first.keys (t.steps.map Prod.snd)
        return t.type :: rows

/-- the loop over the metadata, biologic.py:152-177 -/
def blocks (w : Nat) : List Str → Data → Except Err (List Str)
  | [], _ => .ok []
  | k :: ks, d =>
    match d.metadata with
    | none => .error .keyError
    | some m => match m.get? k with
      | none => .error .keyError
      | some v =>
        if containsSub "Technique_".toList k then
          match v with
          | none => .error .typeError
          | some n => do
            let rows ← techniqueRows w n d.techniques
            let rest ← blocks w ks d
            return (((splitC '_' k).head?.getD []) ++ " : ".toList ++ n) :: rows ++ rest
        else
          let line := match v with
            | none => k
            | some s => if s = "blank".toList then [] else k ++ " : ".toList ++ s
          do
            let rest ← blocks w ks (unset v d)
            return line :: rest

/-- the lines that `to_file` joins, biologic.py:149-177 -/
def writeLines (w : Nat) (d : Doc) : Except Err (List Str) :=
  blocks w d.metadata.keys { metadata := some d.metadata, techniques := some d.techniques }

/-- the text that `to_file` encodes, biologic.py:179-182 -/
def writeText (w : Nat) (d : Doc) : Except Err Str := do
  let ls ← writeLines w d
  latin1 (join "\r\n".toList ls)

/-- `_get_seqs`, biologic_mb_to_maccor.py:114-133; a technique without columns has no `Step` -/
def getSeqs (d : Doc) : Except Err (List (Dict Str Str)) :=
  if d.techniques.length ≠ 1 then .error .assertionError
  else match d.techniques.get? "1".toList with
    | none => .error .keyError
    | some t =>
      if t.type ≠ "Modulo Bat".toList then .error .assertionError
      else if t.steps = [] then .error .keyError
      else
        let seqs := t.steps.map Prod.snd
        match seqs.getLast? with
        | none => .ok seqs
        | some l => match l.get? "Ns".toList with
          | none => .error .keyError
          | some ns => .ok (if ns = [] then seqs.dropLast else seqs)

/-! ### the file of a converted Maccor procedure -/

/-- the keys of `_blank_seq`, protocol_schemas/biologic_mb_schema.yaml:1-81, read at
maccor_to_biologic_mb.py:42-44 -/
def blankKeys : List Str :=
  ["Ns", "ctrl_type", "Apply I/C", "ctrl1_val", "ctrl1_val_unit", "ctrl1_val_vs", "ctrl2_val",
   "ctrl2_val_unit", "ctrl2_val_vs", "ctrl3_val", "ctrl3_val_unit", "ctrl3_val_vs", "N", "charge/discharge",
   "ctrl_seq", "ctrl_repeat", "ctrl_trigger", "ctrl_TO_t", "ctrl_TO_t_unit", "ctrl_Nd", "ctrl_Na",
   "ctrl_corr", "lim_nb", "lim1_type", "lim1_comp", "lim1_Q", "lim1_value", "lim1_value_unit", "lim1_action",
   "lim1_seq", "lim2_type", "lim2_comp", "lim2_Q", "lim2_value", "lim2_value_unit", "lim2_action",
   "lim2_seq", "lim3_type", "lim3_comp", "lim3_Q", "lim3_value", "lim3_value_unit", "lim3_action",
   "lim3_seq", "rec_nb", "rec1_type", "rec1_value", "rec1_value_unit", "rec2_type", "rec2_value",
   "rec2_value_unit", "rec3_type", "rec3_value", "rec3_value_unit", "E range min (V)", "E range max (V)",
   "I Range", "I Range min", "I Range max", "I Range init", "auto rest", "Bandwidth"].map String.toList

/-- `_mps_header_template`, maccor_to_biologic_mb.py:62-94, formatted at 511-518; the safety voltages are given
as texts -/
def mpsHeader (n vmin vmax : Str) : List Str :=
  ["BT-LAB SETTING FILE".toList, [], "Number of linked techniques : ".toList ++ n, [],
   "Filename : C:\\Users\\Biologic Server\\Documents\\BT-Lab\\Data\\PK_loop_technique2.mps".toList, [],
   "Device : BCS-815".toList, "Ecell ctrl range : min = 0.00 V, max = 9.00 V".toList, "Safety Limits :".toList,
   "\tEcell min = ".toList ++ vmin, "\tEcell max = ".toList ++ vmax, "\tfor t > 100 ms".toList,
   "Electrode material : ".toList, "Initial state : ".toList, "Electrolyte : ".toList, "Comments : ".toList,
   "Mass of active material : 0.001 mg".toList, " at x = 0.000".toList,
   "Molecular weight of active material (at x = 0) : 0.001 g/mol".toList,
   "Atomic weight of intercalated ion : 0.001 g/mol".toList, "Acquisition started at : xo = 0.000".toList,
   "Number of e- transfered per intercalated ion : 1".toList, "for DX = 1, DQ = 26.802 mA.h".toList,
   "Battery capacity : 0.000 A.h".toList, "Electrode surface area : 0.001 cm²".toList,
   "Characteristic mass : 0.001 g".toList, "Text export".toList, "   Mode : Standard".toList,
   "   Time format : Absolute MMDDYYYY".toList, "Cycle Definition : Charge/Discharge alternance".toList,
   "Turn to OCV between techniques".toList]

/-- `_technique_to_str`, maccor_to_biologic_mb.py:496-508 -/
def mpsTechnique (t : MtB.Technique) (seqs : List (Dict Str Str)) : Except Err (List Str) := do
  let rows ← seqsToRows 20 blankKeys seqs
  let loop := if t.loops then
      [[], "Technique : ".toList ++ digits (t.num + 1), "Loop".toList,
        ljust 20 "goto Ne".toList ++ ljust 20 (digits t.num), ljust 20 "nt times".toList ++ ljust 20 (intText t.numLoops)]
    else []
  return [] :: ("Technique : ".toList ++ digits t.num) :: "Modulo Bat".toList :: (rows ++ loop)

/-- the loop over the techniques, maccor_to_biologic_mb.py:519-525 -/
def mpsTechniques : List (MtB.Technique × List (Dict Str Str)) → Except Err (List Str)
  | [] => .ok []
  | (t, seqs) :: ts => do
    let a ← mpsTechnique t seqs
    let b ← mpsTechniques ts
    return a ++ b

/-- `_diagnostic_file_str_from_technique_partitions_post_conversion`, maccor_to_biologic_mb.py:510-527, as lines -/
def mpsLines (vmin vmax : Str) (ts : List (MtB.Technique × List (Dict Str Str))) : Except Err (List Str) :=
  match ts.getLast? with
  | none => .error .assertionError
  | some l => do
    let n := if l.1.loops then l.1.num + 1 else l.1.num
    let body ← mpsTechniques ts
    return mpsHeader (digits n) vmin vmax ++ body

/-- the text: every line is followed by a line end, maccor_to_biologic_mb.py:62-94, 496-506 -/
def mpsText (ls : List Str) : Str := (ls.map (· ++ "\r\n".toList)).flatten

end Beep.Settings
