import Verif.Spec.FixedWidth
/-
Specification vocabulary for Biologic settings files.
-/
namespace Beep.Spec.Settings
open Beep Beep.Spec.FixedWidth

/-- a line outside the tables: empty, a text without a colon, or a name and a value -/
inductive HeadLine where
  | blank
  | plain (s : Str)
  | field (name value : Str)

/-- how the line reads in the file -/
def HeadLine.text : HeadLine → Str
  | .blank => []
  | .plain s => s
  | .field k v => k ++ " : ".toList ++ v

/-- what can be told from the line: its name (of an empty line: its number) -/
inductive Name where
  | line (number : Nat)
  | text (s : Str)
  deriving DecidableEq

/-- the name of line number `i` -/
def HeadLine.name (i : Nat) : HeadLine → Name
  | .blank => .line i
  | .plain s => .text s
  | .field k _ => .text k

/-- the names of consecutive lines, the first of which has number `i` -/
def names (i : Nat) : List HeadLine → List Name
  | [] => []
  | h :: hs => h.name i :: names (i + 1) hs

/-- a line that can be told from an empty line, from a heading and from a reference into the document -/
def HeadLine.Ordinary : HeadLine → Prop
  | .blank => True
  | .plain s => s ≠ [] ∧ ':' ∉ s ∧ ¬ "Technique".toList <:+: s ∧ ¬ "line".toList <+: s
  | .field k v => ':' ∉ k ∧ ¬ "Technique".toList <:+: k ++ " : ".toList ++ v ∧ ¬ "line".toList <+: k ∧
      v ≠ "blank".toList ∧ ¬ "Metadata".toList <+: v

/-- no line break in the text -/
def OneLine (s : Str) : Prop := '\r' ∉ s ∧ '\n' ∉ s

/-- the rest of a text behind a prefix -/
def after (p s : Str) : Option Str := if p <+: s then some (s.drop p.length) else none

/-- the numbers in the headings of the techniques, in the order of the file -/
def headings (lines : List Str) : List Str := lines.filterMap (after "Technique : ".toList)

/-- a text filled up with blanks to the width of a column -/
def padded (w : Nat) (s : Str) : Str := s ++ List.replicate (w - s.length) ' '

/-- a line per key: the key and the value of every sequence, each in a column of width `w` -/
def tableLines (w : Nat) (keys : List Str) (seqs : List (Dict Str Str)) : List Str :=
  keys.map (fun k => padded w k ++ (seqs.map (fun s => padded w ((s.get? k).getD []))).flatten)

/-- the fields of a sequence of a Modulo Bat technique, in the order of the file: the control with its three
values, three limits, three recordings and the ranges -/
def moduloBatKeys : List Str :=
  (["Ns", "ctrl_type", "Apply I/C"] ++
   ["1", "2", "3"].flatMap (fun i => ["_val", "_val_unit", "_val_vs"].map (fun f => "ctrl" ++ i ++ f)) ++
   ["N", "charge/discharge"] ++ ["seq", "repeat", "trigger", "TO_t", "TO_t_unit", "Nd", "Na", "corr"].map ("ctrl_" ++ ·) ++
   "lim_nb" :: ["1", "2", "3"].flatMap (fun i =>
     ["type", "comp", "Q", "value", "value_unit", "action", "seq"].map (fun f => "lim" ++ i ++ "_" ++ f)) ++
   "rec_nb" :: ["1", "2", "3"].flatMap (fun i => ["type", "value", "value_unit"].map (fun f => "rec" ++ i ++ "_" ++ f)) ++
   ["E range min (V)", "E range max (V)"] ++ ["I Range", "I Range min", "I Range max", "I Range init"] ++
   ["auto rest", "Bandwidth"]).map String.toList

/-- there are sequences, each with the same keys, and all keys and values fit their column -/
structure Fits (w : Nat) (keys : List Str) (seqs : List (Dict Str Str)) : Prop where
  width : 0 < w
  some_key : keys ≠ []
  distinct : keys.Nodup
  some_seq : seqs ≠ []
  has : ∀ s ∈ seqs, HasKeys keys s
  key : ∀ k ∈ keys, k.length ≤ w ∧ Trimmed k
  value : ∀ s ∈ seqs, ∀ kv ∈ s, kv.2.length ≤ w ∧ Trimmed kv.2

/-- the lines of a settings file with one technique: lines before it, its heading with a number, its type, its
table, and lines behind it -/
def fileLines (w : Nat) (before : List HeadLine) (n ty : Str) (keys : List Str) (seqs : List (Dict Str Str))
    (behind : List HeadLine) : List Str :=
  before.map HeadLine.text ++ ("Technique : ".toList ++ n) :: ty :: (tableLines w keys seqs ++ behind.map HeadLine.text)

/-- the conditions on such a file: `len` is the number of lines of a technique below its heading -/
structure Regular (w len : Nat) (before : List HeadLine) (n ty : Str) (keys : List Str) (seqs : List (Dict Str Str))
    (behind : List HeadLine) : Prop where
  ordinary_before : ∀ h ∈ before, h.Ordinary
  ordinary_behind : ∀ h ∈ behind, h.Ordinary
  names_distinct : (names 0 before ++ names (before.length + 2 + keys.length) behind).Nodup
  number : ':' ∉ n ∧ Trimmed n
  plain : ∀ l ∈ ty :: tableLines w keys seqs, ¬ "Technique".toList <:+: l
  fits : Fits w keys seqs
  length : keys.length + 1 = len ∨ (behind = [] ∧ keys.length + 1 ≤ len)

/-- the lines of a technique of the file of a converted procedure: an empty line, its heading, its type and its
table; a repeated technique (`repeats`) is followed by a technique of its own that goes back to it -/
def block (keys : List Str) (number next : Str) (repeats : Option Str) (seqs : List (Dict Str Str)) : List Str :=
  ["".toList, "Technique : ".toList ++ number, "Modulo Bat".toList] ++ tableLines 20 keys seqs ++
    (match repeats with
      | none => []
      | some times => ["".toList, "Technique : ".toList ++ next, "Loop".toList,
          padded 20 "goto Ne".toList ++ padded 20 number, padded 20 "nt times".toList ++ padded 20 times])

/-- the head of a settings file for the BCS-815 cycler, with the number of techniques and the safety voltages -/
def fileHead (n lo hi : Str) : List Str :=
  "BT-LAB SETTING FILE".toList :: "".toList :: ("Number of linked techniques : ".toList ++ n) :: "".toList ::
  "Filename : C:\\Users\\Biologic Server\\Documents\\BT-Lab\\Data\\PK_loop_technique2.mps".toList :: "".toList ::
  "Device : BCS-815".toList :: "Ecell ctrl range : min = 0.00 V, max = 9.00 V".toList :: "Safety Limits :".toList ::
  ("\tEcell min = ".toList ++ lo) :: ("\tEcell max = ".toList ++ hi) ::
  ["\tfor t > 100 ms", "Electrode material : ", "Initial state : ", "Electrolyte : ", "Comments : ",
    "Mass of active material : 0.001 mg", " at x = 0.000", "Molecular weight of active material (at x = 0) : 0.001 g/mol",
    "Atomic weight of intercalated ion : 0.001 g/mol", "Acquisition started at : xo = 0.000",
    "Number of e- transfered per intercalated ion : 1", "for DX = 1, DQ = 26.802 mA.h", "Battery capacity : 0.000 A.h",
    "Electrode surface area : 0.001 cm²", "Characteristic mass : 0.001 g", "Text export", "   Mode : Standard",
    "   Time format : Absolute MMDDYYYY", "Cycle Definition : Charge/Discharge alternance",
    "Turn to OCV between techniques"].map String.toList

end Beep.Spec.Settings
