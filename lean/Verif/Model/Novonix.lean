import Verif.Model.Text
/-
The head of a Novonix file (beep/structure/novonix.py 30-75): the search for the header line, the
metadata of the summary section, and the table below the header.
Lines are lists of bytes, given as characters below 256, with their line ends.
-/
namespace Beep.Novonix
open Beep Text

/-! ### Metadata -/

/-- novonix_conversion.yaml:67-77 `metadata_fields`, turned round (novonix.py 34): the phrase that is
looked for and the name of the entry, in order -/
def fields : List (Str × Str) :=
  [("Channel".toList, "channel".toList), ("Cell".toList, "cell".toList), ("Serial Number".toList, "barcode".toList),
   ("Description".toList, "description".toList), ("Protocol".toList, "protocol".toList), ("Mass".toList, "mass".toList),
   ("Capacity".toList, "nominal_capacity".toList), ("Area".toList, "area".toList),
   ("DC Offset Voltage".toList, "offset_voltage_dc".toList), ("Version".toList, "software_version".toList)]

/-- a digit of `\xNN` (novonix.py 56) -/
def hex (n : Nat) : Char := "0123456789abcdef".toList.getD n '0'

/-- one byte inside `str(line)` (novonix.py 56); `q` is the quote around the text -/
def escape (q c : Char) : Str :=
  if c = '\\' then ['\\', '\\']
  else if c = q then ['\\', q]
  else if c = '\t' then ['\\', 't']
  else if c = '\n' then ['\\', 'n']
  else if c = '\r' then ['\\', 'r']
  else if c.toNat < 32 ∨ 127 ≤ c.toNat then ['\\', 'x', hex (c.toNat / 16), hex (c.toNat % 16)]
  else [c]

/-- `str(line)` of a line of bytes (novonix.py 56): `b'…'`, or `b"…"` if there is a single quote and no double quote -/
def repr (line : Str) : Str :=
  let q := if '\'' ∈ line ∧ '"' ∉ line then '"' else '\''
  'b' :: q :: (line.flatMap (escape q) ++ [q])

/-- `s.replace("\\n", "")` (novonix.py 61): the two characters `\` and `n` -/
def dropNewline : Str → Str
  | [] => []
  | '\\' :: 'n' :: s => dropNewline s
  | c :: s => c :: dropNewline s

/-- novonix.py 59-62: what follows the last colon, without blanks at the ends, `\n` and quotes; empty is `None` -/
def value (l : Str) : Option Str :=
  let v := (dropNewline (strip ((splitC ':' l).getLastD []))).filter (fun c => !decide (c = '\''))
  if v = [] then none else some v

/-- novonix.py 57-63: the first phrase that the line contains decides the entry -/
def entryOf (l : Str) : Option Str := (fields.find? (fun p => containsSub p.1 l)).map Prod.snd

/-- novonix.py 55-63: a line of the summary -/
def update (m : Dict Str (Option Str)) (line : Str) : Dict Str (Option Str) :=
  match entryOf (repr line) with
  | some k => m.set k (value (repr line))
  | none => m

/-- novonix.py 33: all entries are `None` at first -/
def start : Dict Str (Option Str) := fields.map (fun p => (p.2, none))

/-! ### The search for the header -/

/-- novonix.py 45-67: the number of the header line and the metadata; `i` is the number of the next
line, `b` and `e` tell whether the summary has begun and ended. At the end of the file empty lines
are read until 500 lines are counted. `keyError` stands for its base class LookupError. -/
def scan : Nat → Bool → Bool → Dict Str (Option Str) → List Str → Except Err (Nat × Dict Str (Option Str))
  | _, _, _, _, [] => .error .keyError
  | i, b, e, m, line :: rest =>
    let header := containsSub "Cycle Number".toList line
    let b' := b || (!header && containsSub "[Summary]".toList line)
    let e' := e || (!header && !containsSub "[Summary]".toList line && containsSub "[End Summary]".toList line)
    let m' := if b' && !e' then update m line else m
    if 500 < i + 1 then .error .keyError
    else if header then .ok (i, m') else scan (i + 1) b' e' m' rest

/-! ### The table -/

/-- the text of a line without its line end (novonix.py 68) -/
def text (line : Str) : Str := (line.reverse.dropWhile (fun c => decide (c = '\n' ∨ c = '\r'))).reverse

/-- lines that leave no row in the table (novonix.py 68-69: `read_csv` skips blank lines, `dropna`
drops rows of tabs only). Simplified: a line that consists of `NA`, `nan` or the like would go as well. -/
def blank (line : Str) : Bool := line.all isWs

/-- the header and the rows of a file (novonix.py 70-73) -/
structure Table where
  headers : List Str
  rows : List (List Str)
  deriving DecidableEq

/-- novonix.py 68-73. Simplified: the lines have no tabs and no double quotes, rows are not filled up to
the width of the widest. -/
def table (h : Nat) (lines : List Str) : Except Err Table :=
  match ((lines.filter (fun l => !blank l)).drop (h - 1)).map (fun l => splitC ',' (text l)) with
  | [] => .error .indexError
  | hs :: rows => .ok { headers := hs, rows := rows }

/-- novonix.py 30-73: the metadata and the table -/
def read (lines : List Str) : Except Err (Dict Str (Option Str) × Table) :=
  match scan 1 false false start lines with
  | .error e => .error e
  | .ok (h, m) =>
    match table h lines with
    | .error e => .error e
    | .ok t => .ok (m, t)

end Beep.Novonix
