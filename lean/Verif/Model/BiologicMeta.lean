import Verif.Model.Ingest
/-
Model of the metadata of Biologic runs, beep/structure/biologic.py 122 and 145-214.  A file is the
list of lines that `readline` returns; the characters of a line are its bytes.
-/
namespace Beep.BiologicMeta
open Beep

/-- a byte in `str(line)`, biologic.py:175: backslash and quote are escaped, as is what cannot be printed -/
def reprByte (quote c : Char) : Str :=
  if c = quote ∨ c = '\\' then ['\\', c]
  else if c = '\t' then ['\\', 't']
  else if c = '\n' then ['\\', 'n']
  else if c = '\r' then ['\\', 'r']
  else if c.toNat < 32 ∨ 127 ≤ c.toNat then ['\\', 'x', Nat.digitChar (c.toNat / 16), Nat.digitChar (c.toNat % 16)]
  else [c]

/-- `str(line)` of bytes, biologic.py:175: single quotes unless there is a single and no double quote in it -/
def reprBytes (l : Str) : Str :=
  let quote := if '\'' ∈ l ∧ '"' ∉ l then '"' else '\''
  'b' :: quote :: (l.flatMap (reprByte quote) ++ [quote])

/-- biologic.py:176-181 -/
def clean (l : Str) : Str :=
  let l1 := if "b'".toList.isPrefixOf l then l.drop 2 else l
  let l2 := if "'".toList.isSuffixOf l1 then l1.dropLast else l1
  if "\\r\\n".toList.isSuffixOf l2 then l2.take (l2.length - 4) else l2

/-- `line.strip().split(" : ")`, biologic.py:183, 184, 190, 191, 195 -/
def parts (line : Str) : List Str := Ingest.splitStr " : ".toList (Text.strip line)

/-- biologic.py:184-186: `int` of the number of the letter and what follows it -/
def channelOf (line : Str) : Except Err Int :=
  match parts line with
  | _ :: v :: _ =>
    match Text.splitC ' ' v with
    | (c :: rest) :: _ =>
      if c.toNat < 64 then (Ingest.parseInt (Nat.toDigits 10 (64 - c.toNat) ++ rest)).map (- ·)
      else Ingest.parseInt (Nat.toDigits 10 (c.toNat - 64) ++ rest)
    | _ => .error .indexError
  | _ => .error .indexError

/-- the variables of the loop, biologic.py:162-169; `protocol` is the text whose digest is stored -/
structure St where
  channel : Option Int := none
  barcode : Option Str := none
  started : Bool := false
  text : Str := []
  protocol : Option Str := none
  deriving DecidableEq, Repr

/-- biologic.py:183-188 -/
def stepChannel (line : Str) (s : St) : Except Err St :=
  if (parts line).head? = some "Run on channel".toList then do return { s with channel := some (← channelOf line) }
  else .ok s

/-- biologic.py:190-193 -/
def stepBarcode (line : Str) (s : St) : St :=
  if containsSub "Comments".toList ((parts line).head?.getD []) then
    { s with barcode := some ((parts line).getLast?.getD []) }
  else s

/-- biologic.py:195-197 -/
def stepStart (line : Str) (s : St) : St :=
  if containsSub "Cycle Definition".toList ((parts line).head?.getD []) then
    { s with text := s.text ++ line ++ ['\n'], started := true }
  else s

/-- biologic.py:199-205 -/
def stepProtocol (line : Str) (s : St) : St :=
  if s.started then
    if line = [] then { s with protocol := some s.text } else { s with text := s.text ++ line ++ ['\n'] }
  else s

/-- one pass of the loop, biologic.py:183-205 -/
def step (line : Str) (s : St) : Except Err St := do
  return stepProtocol line (stepStart line (stepBarcode line (← stepChannel line s)))

/-- biologic.py:207-209 -/
def done (s : St) : Bool := s.channel.isSome && s.barcode.isSome && s.protocol.isSome

/-- the loop, biologic.py:173-213, with the number of lines it may still read; at the end of the file
`readline` returns nothing -/
def loop : Nat → List Str → St → Except Err St
  | 0, _, s => .ok s
  | n + 1, lines, s => do
    let s' ← step (clean (reprBytes (lines.head?.getD []))) s
    if done s' then return s' else loop n lines.tail s'

/-- `parse_metadata`, biologic.py:145-214: more than 10000 lines are not read -/
def parseMetadata (lines : List Str) : Except Err St := loop 10001 lines {}

/-- `path.replace(".csv", ".mpl")`, biologic.py:122 -/
def metadataPath (path : Str) : Str := Text.join ".mpl".toList (Ingest.splitStr ".csv".toList path)

end Beep.BiologicMeta
