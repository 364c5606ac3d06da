import Verif.Model.Text
/-
Model of the fixed width tables of Biologic settings files: `_seqs_to_str` of
beep/protocol/maccor_to_biologic_mb.py 478-494, the table part of Settings.to_file and of
Settings.mps_text_to_schedule_dict, beep/protocol/biologic.py 136-181 and 100-132.  A table is the
list of its lines, without the line ends.  Keys and values are texts (the code applies `str`).
-/
namespace Beep.FixedWidth
open Beep Beep.Text

/-- a row after the key, 487-491 of maccor_to_biologic_mb.py -/
def cells (w : Nat) (key : Str) : List (Dict Str Str) → Except Err Str
  | [] => .ok []
  | s :: ss =>
    match s.get? key with
    | none => .error .valueError
    | some v => if v.length > w then .error .valueError else do return ljust w v ++ (← cells w key ss)

/-- `_seqs_to_str`, 478-494; `keys` are the keys of the blank sequence -/
def seqsToRows (w : Nat) : List Str → List (Dict Str Str) → Except Err (List Str)
  | [], _ => .ok []
  | k :: ks, seqs =>
    if k.length > w then .error .valueError
    else do
      let r ← cells w k seqs
      let rs ← seqsToRows w ks seqs
      return (ljust w k ++ r) :: rs

/-- the rows of Settings.to_file, biologic.py 159-166: no check of the width -/
def settingsRows (w : Nat) (keys : List Str) (steps : List (Dict Str Str)) : Except Err (List Str) :=
  match keys with
  | [] => .ok []
  | k :: ks => do
    let r ← steps.foldlM (fun (line : Str) s => match s.get? k with
      | none => Except.error Err.keyError
      | some v => .ok (line ++ ljust w v)) (ljust w k)
    let rs ← settingsRows w ks steps
    return r :: rs

/-- `max([len(l) for l in lines])`, 112; 0 stands for the error on an empty list
(biologic.py:112) -/
def maxLen : List Str → Nat
  | [] => 0
  | l :: ls => max l.length (maxLen ls)

/-- one cell, 119 (biologic.py:119) -/
def cell (w : Nat) (line : Str) (col : Nat) : Str := strip ((line.drop (col * w)).take w)

/-- `OrderedDict(zip(headers, column))`, 126 (biologic.py:126) -/
def zipDict (hs vs : List Str) : Dict Str Str := (hs.zip vs).foldl (fun d kv => d.set kv.1 kv.2) []

/-- the table part of `mps_text_to_schedule_dict`, 110-132: the steps `1, 2, ...` -/
def readTable (w : Nat) (lines : List Str) : List (Dict Str Str) :=
  let n := maxLen lines / w
  (List.range' 1 (n - 1)).map (fun c => zipDict (lines.map (fun l => cell w l 0)) (lines.map (fun l => cell w l c)))

end Beep.FixedWidth
