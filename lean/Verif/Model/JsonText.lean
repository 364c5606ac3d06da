import Verif.Proof.Base

/-!
# The text of saved files

`to_json_file` of the structured runs, features, feature matrices, models and splits hands a
nested dictionary to `monty.serialization.dumpfn`, which opens the file for writing (emptying it)
and writes `json.dumps` of the dictionary; `from_json_file` reads the text back with `json.load`.
This file models the two at the level of single characters, and the file while it is written.

Simplified: compressed files (`.json.gz`) are not modelled; a number is its literal (the
conversions between a float and its shortest literal are not modelled); an object is its list of
pairs (`dict(pairs)` merges repeated keys, and a dictionary that is written has none); the depth
limit of the interpreter is not modelled.
-/

namespace Beep.JsonText

/-- The characters of a file.  What `from_json_file` reads, base.py:328-329. -/
abbrev Text := List Char

/-- The nested dictionaries and lists given to `dumpfn`, base.py:353-357 and features/base.py:195-196.
A string is the list of its code points, a number its literal. -/
inductive J where
  | null
  | bool (b : Bool)
  | num (lit : Text)
  | nan
  | inf (neg : Bool)
  | str (s : List Nat)
  | arr (l : List J)
  | obj (l : List (List Nat × J))

/-! ## Writing -/

/-- One hexadecimal digit as `'{0:04x}'.format` writes it (`json.dumps`, called through
base.py:357). -/
def hexDigit (d : Nat) : Char :=
  if d < 10 then Char.ofNat (48 + d) else Char.ofNat (87 + d)

/-- `'\\u{0:04x}'.format(n)` of `json.dumps`, called through base.py:357. -/
def uEscape (n : Nat) : Text :=
  ['\\', 'u', hexDigit (n / 4096 % 16), hexDigit (n / 256 % 16), hexDigit (n / 16 % 16),
    hexDigit (n % 16)]

/-- One character of a string as `json.dumps` writes it with `ensure_ascii=True`, the default
`dumpfn` leaves alone (base.py:357). -/
def escape (n : Nat) : Text :=
  if n = 0x22 then ['\\', '"']
  else if n = 0x5c then ['\\', '\\']
  else if n = 0x0a then ['\\', 'n']
  else if n = 0x0d then ['\\', 'r']
  else if n = 0x09 then ['\\', 't']
  else if n = 0x0c then ['\\', 'f']
  else if n = 0x08 then ['\\', 'b']
  else if 0x20 ≤ n ∧ n ≤ 0x7e then [Char.ofNat n]
  else if n < 0x10000 then uEscape n
  else uEscape (0xd800 + (n - 0x10000) / 1024 % 1024) ++ uEscape (0xdc00 + (n - 0x10000) % 1024)

/-- A string as `json.dumps` writes it (base.py:357). -/
def dumpStr (s : List Nat) : Text := '"' :: (s.flatMap escape ++ ['"'])

mutual
/-- `json.dumps` with its default separators, called through base.py:357 and
features/base.py:196. -/
def dumps : J → Text
  | .null => ['n', 'u', 'l', 'l']
  | .bool true => ['t', 'r', 'u', 'e']
  | .bool false => ['f', 'a', 'l', 's', 'e']
  | .num lit => lit
  | .nan => ['N', 'a', 'N']
  | .inf false => ['I', 'n', 'f', 'i', 'n', 'i', 't', 'y']
  | .inf true => ['-', 'I', 'n', 'f', 'i', 'n', 'i', 't', 'y']
  | .str s => dumpStr s
  | .arr [] => ['[', ']']
  | .arr (v :: l) => '[' :: (dumps v ++ dumpsElems l)
  | .obj [] => ['{', '}']
  | .obj ((k, v) :: l) => '{' :: (dumpStr k ++ (':' :: ' ' :: (dumps v ++ dumpsPairs l)))
/-- The rest of a list in `json.dumps` (base.py:357). -/
def dumpsElems : List J → Text
  | [] => [']']
  | v :: l => ',' :: ' ' :: (dumps v ++ dumpsElems l)
/-- The rest of a dictionary in `json.dumps` (base.py:357). -/
def dumpsPairs : List (List Nat × J) → Text
  | [] => ['}']
  | (k, v) :: l => ',' :: ' ' :: (dumpStr k ++ (':' :: ' ' :: (dumps v ++ dumpsPairs l)))
end

/-! ## Reading -/

/-- The white space of `json.load`, called at base.py:329. -/
def isWs (c : Char) : Bool := c == ' ' || c == '\t' || c == '\n' || c == '\r'

/-- Skipping white space in `json.load`, called at base.py:329. -/
def ws (s : Text) : Text := s.dropWhile isWs

/-- The value of one hexadecimal digit in `json.load`, called at base.py:329. -/
def hexVal (c : Char) : Option Nat :=
  if 48 ≤ c.toNat ∧ c.toNat ≤ 57 then some (c.toNat - 48)
  else if 97 ≤ c.toNat ∧ c.toNat ≤ 102 then some (c.toNat - 87)
  else if 65 ≤ c.toNat ∧ c.toNat ≤ 70 then some (c.toNat - 55)
  else none

/-- The four digits after `\u` in `json.load`, called at base.py:329. -/
def hex4 (a b c d : Char) : Option Nat :=
  match hexVal a, hexVal b, hexVal c, hexVal d with
  | some a, some b, some c, some d => some (((a * 16 + b) * 16 + c) * 16 + d)
  | _, _, _, _ => none

/-- The escapes of one letter in `json.load`, called at base.py:329. -/
def unescape (c : Char) : Option Nat :=
  if c = '"' then some 0x22
  else if c = '\\' then some 0x5c
  else if c = '/' then some 0x2f
  else if c = 'b' then some 0x08
  else if c = 'f' then some 0x0c
  else if c = 'n' then some 0x0a
  else if c = 'r' then some 0x0d
  else if c = 't' then some 0x09
  else none

/-- `scanstring` of `json.load` (base.py:329) after the opening quote: the characters up to the
closing quote, every `\uXXXX` on its own (pairs are joined by `joinPairs`).  Errors are `none`. -/
def units : Text → Option (List Nat × Text)
  | [] => none
  | c :: r =>
    if c = '"' then some ([], r)
    else if c = '\\' then
      match r with
      | [] => none
      | e :: r' =>
        if e = 'u' then
          match r' with
          | a :: b :: c :: d :: r'' =>
            match hex4 a b c d with
            | some n => (units r'').map fun (l, t) => (n :: l, t)
            | none => none
          | _ => none
        else
          match unescape e with
          | some n => (units r').map fun (l, t) => (n :: l, t)
          | none => none
    else if c.toNat < 0x20 then none
    else (units r).map fun (l, t) => (c.toNat :: l, t)

/-- The part of `scanstring` of `json.load` (base.py:329) that joins the two halves of a
character beyond U+FFFF. -/
def joinPairs : List Nat → List Nat
  | hi :: lo :: r =>
    if 0xd800 ≤ hi ∧ hi ≤ 0xdbff ∧ 0xdc00 ≤ lo ∧ lo ≤ 0xdfff then
      (0x10000 + (hi - 0xd800) * 1024 + (lo - 0xdc00)) :: joinPairs r
    else hi :: joinPairs (lo :: r)
  | l => l

/-- `scanstring` of `json.load` (base.py:329) after the opening quote. -/
def scanString (s : Text) : Option (List Nat × Text) :=
  (units s).map fun (l, t) => (joinPairs l, t)

/-- `[0-9]` in the number pattern of `json.load`, called at base.py:329. -/
def isDig (c : Char) : Bool := decide (48 ≤ c.toNat) && decide (c.toNat ≤ 57)

/-- `0|[1-9][0-9]*` in the number pattern of `json.load`, called at base.py:329. -/
def intPart : Text → Option (Text × Text)
  | [] => none
  | c :: r =>
    if c = '0' then some (['0'], r)
    else if isDig c then some (c :: r.takeWhile isDig, r.dropWhile isDig)
    else none

/-- `(\.[0-9]+)?` in the number pattern of `json.load`, called at base.py:329. -/
def fracPart (s : Text) : Text × Text :=
  match s with
  | [] => ([], s)
  | c :: r =>
    if c = '.' ∧ r.takeWhile isDig ≠ [] then ('.' :: r.takeWhile isDig, r.dropWhile isDig)
    else ([], s)

/-- `[-+]?` in the number pattern of `json.load`, called at base.py:329. -/
def expSign : Text → Text × Text
  | [] => ([], [])
  | c :: r => if c = '+' ∨ c = '-' then ([c], r) else ([], c :: r)

/-- `([eE][-+]?[0-9]+)?` in the number pattern of `json.load`, called at base.py:329. -/
def expPart (s : Text) : Text × Text :=
  match s with
  | [] => ([], s)
  | c :: r =>
    if (c = 'e' ∨ c = 'E') ∧ (expSign r).2.takeWhile isDig ≠ [] then
      (c :: ((expSign r).1 ++ (expSign r).2.takeWhile isDig), (expSign r).2.dropWhile isDig)
    else ([], s)

/-- The number pattern of `json.load` (base.py:329) after the sign. -/
def unsigned (s : Text) : Option (Text × Text) :=
  match intPart s with
  | none => none
  | some (i, s2) =>
    some (i ++ ((fracPart s2).1 ++ (expPart (fracPart s2).2).1), (expPart (fracPart s2).2).2)

/-- The whole number pattern of `json.load`, called at base.py:329. -/
def number : Text → Option (Text × Text)
  | [] => none
  | c :: r =>
    if c = '-' then (unsigned r).map fun (t, r) => ('-' :: t, r)
    else unsigned (c :: r)

/-- Comparing the next characters with a word, as `json.load` does for `null`, `true`, … (called
at base.py:329): what follows the word. -/
def strip : Text → Text → Option Text
  | [], s => some s
  | _ :: _, [] => none
  | a :: w, b :: s => if a = b then strip w s else none

/-- The loop of `JSONArray` in `json.load` (base.py:329), from the first character of an element.
`p` reads one value; the first argument bounds the number of rounds. -/
def elems (p : Text → Option (J × Text)) : Nat → Text → Option (List J × Text)
  | 0, _ => none
  | n + 1, s =>
    match p s with
    | none => none
    | some (v, r) =>
      match ws r with
      | [] => none
      | c :: r' =>
        if c = ']' then some ([v], r')
        else if c = ',' then (elems p n (ws r')).map fun (l, t) => (v :: l, t)
        else none

/-- The loop of `JSONObject` in `json.load` (base.py:329), from the quote of a key. -/
def members (p : Text → Option (J × Text)) : Nat → Text → Option (List (List Nat × J) × Text)
  | 0, _ => none
  | _ + 1, [] => none
  | n + 1, q :: s =>
    if q = '"' then
      match scanString s with
      | none => none
      | some (k, r1) =>
        match ws r1 with
        | [] => none
        | c :: r2 =>
          if c = ':' then
            match p (ws r2) with
            | none => none
            | some (v, r3) =>
              match ws r3 with
              | [] => none
              | c :: r4 =>
                if c = '}' then some ([(k, v)], r4)
                else if c = ',' then (members p n (ws r4)).map fun (l, t) => ((k, v) :: l, t)
                else none
          else none
    else none

/-- `JSONArray` in `json.load` (base.py:329) after the bracket. -/
def array (p : Text → Option (J × Text)) (n : Nat) (r : Text) : Option (J × Text) :=
  match ws r with
  | [] => none
  | c :: r' =>
    if c = ']' then some (.arr [], r')
    else (elems p n (c :: r')).map fun (l, t) => (.arr l, t)

/-- `JSONObject` in `json.load` (base.py:329) after the brace. -/
def object (p : Text → Option (J × Text)) (n : Nat) (r : Text) : Option (J × Text) :=
  match ws r with
  | [] => none
  | c :: r' =>
    if c = '}' then some (.obj [], r')
    else (members p n (c :: r')).map fun (l, t) => (.obj l, t)

/-- `scan_once` in `json.load`, called at base.py:329 and features/base.py:172: one value from the
first character on, and the rest of the text.  Errors (`JSONDecodeError`) are `none`.  The first
argument bounds the nesting and the rounds of each loop. -/
def value : Nat → Text → Option (J × Text)
  | 0, _ => none
  | _ + 1, [] => none
  | n + 1, c :: r =>
    if c = '"' then (scanString r).map fun (k, t) => (.str k, t)
    else if c = '{' then object (value n) n r
    else if c = '[' then array (value n) n r
    else if c = 'n' then (strip ['u', 'l', 'l'] r).map fun t => (.null, t)
    else if c = 't' then (strip ['r', 'u', 'e'] r).map fun t => (.bool true, t)
    else if c = 'f' then (strip ['a', 'l', 's', 'e'] r).map fun t => (.bool false, t)
    else if c = 'N' then (strip ['a', 'N'] r).map fun t => (.nan, t)
    else if c = 'I' then
      (strip ['n', 'f', 'i', 'n', 'i', 't', 'y'] r).map fun t => (.inf false, t)
    else
      match number (c :: r) with
      | some (l, t) => some (.num l, t)
      | none =>
        if c = '-' then
          (strip ['I', 'n', 'f', 'i', 'n', 'i', 't', 'y'] r).map fun t => (.inf true, t)
        else none

/-- `json.load` with a bound on nesting and rounds, base.py:329: one value between white space. -/
def loadsWith (n : Nat) (s : Text) : Option J :=
  match value n (ws s) with
  | none => none
  | some (v, r) => if ws r = [] then some v else none

/-- `json.load`, called at base.py:329 and features/base.py:172.  The bound is never reached
(`C165_bound`). -/
def loads (s : Text) : Option J := loadsWith (s.length + 1) s

/-! ## The file -/

/-- What happens to the file during `dumpfn` (base.py:357): it is opened for writing, which
empties it, and pieces of text are appended. -/
inductive Op where
  | openWrite
  | write (chunk : Text)

/-- One of these steps on a file; `none` is a file that does not exist (base.py:357). -/
def Op.run : Op → Option Text → Option Text
  | .openWrite, _ => some []
  | .write c, f => f.map (· ++ c)

/-- The steps of `to_json_file`, base.py:338-357 (the same in features/base.py:178-196): the text
reaches the file in pieces. -/
def saveOps (chunks : List Text) : List Op := .openWrite :: chunks.map .write

/-- The file when the process has done the first `k` steps of `to_json_file`, base.py:357, and
dies. -/
def crashed (ops : List Op) (k : Nat) (old : Option Text) : Option Text :=
  (ops.take k).foldl (fun f o => o.run f) old

/-- `from_json_file` up to the dictionary it hands on, base.py:328-329: opening a file that does
not exist and reading a text that is not JSON are errors. -/
def loadFile (f : Option Text) : Option J := f.bind loads

end Beep.JsonText
