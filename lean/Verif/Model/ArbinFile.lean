import Verif.Model.Text
/-
Model of Schedule.to_file and Schedule.from_file, beep/protocol/arbin.py 42-109 and 236-257.
A file is the list of its characters.
-/
namespace Beep.Arbin
open Beep Beep.Dash Beep.Text

/-- `_get_headings`, 236-257, as lists of keys: the code joins them with "." -/
def headings : Obj → List (List Str)
  | .nil => []
  | .leaf _ _ r => headings r
  | .node k s r => [k] :: (headings s).map (fun h => k :: h) ++ headings r

/-- `body_data.items()`: a dictionary inside makes `"=".join` raise (arbin.py:100-103) -/
def items : Obj → Except Err (List (Str × Str))
  | .nil => .ok []
  | .leaf k v r => do return (k, v) :: (← items r)
  | .node _ _ _ => .error .typeError

/-- the loop of `to_file`, 88-94, over the reversed headings: every section is read and removed;
`acc` is the list after the final reversal -/
def collect : Obj → List (List Str) → List (List Str × Option Val) → List (List Str × Option Val)
  | _, [], acc => acc
  | data, h :: hs, acc => collect (unsetP data h) hs ((h, getP data h) :: acc)

/-- line separator, the default of 71 (arbin.py:71) -/
def eol : Str := ['\r', '\n']

/-- `"=".join([key, value])`, 102 (arbin.py:102) -/
def entry (kv : Str × Str) : Str := kv.1 ++ '=' :: kv.2

/-- one block, 99-104; a value that is not a dictionary has no `items` -/
def block (s : List Str × Option Val) : Except Err Str :=
  match s.2 with
  | some (.obj o) => do
    let kvs ← items o
    return '[' :: join ['_'] s.1 ++ ']' :: eol ++ join eol (kvs.map entry)
  | _ => .error .attributeError

/-- mapping with early exit (the comprehension of arbin.py:102) -/
def mapE {α β : Type} (f : α → Except Err β) : List α → Except Err (List β)
  | [] => .ok []
  | a :: as => do
    let b ← f a
    let bs ← mapE f as
    return b :: bs

/-- `to_file`, 71-109 -/
def toFile (o : Obj) : Except Err Str := do
  let blocks ← mapE block (collect o (headings o).reverse [])
  latin1 (join eol blocks ++ eol)

/-- the longest prefix of a line that is followed by "]" and not empty: `(.+)\]` is greedy
(arbin.py:62) -/
def upToClose : Str → Option Str
  | [] => none
  | c :: cs =>
    match upToClose cs with
    | some h => some (c :: h)
    | none => if cs.head? = some ']' then some [c] else none

/-- the first match of `\[(.+)\]`: text before, group, text after.  The dot does not match a
line feed (arbin.py:62). -/
def search : Str → Option (Str × Str × Str)
  | [] => none
  | c :: cs =>
    match (if c = '[' then upToClose (cs.takeWhile (fun x => x ≠ '\n')) else none) with
    | some h => some ([], h, cs.drop (h.length + 1))
    | none => (search cs).map (fun r => (c :: r.1, r.2.1, r.2.2))

theorem search_lt (t : Str) (a h r : Str) (he : search t = some (a, h, r)) : r.length < t.length := by
  induction t generalizing a with
  | nil => cases he
  | cons c cs ih =>
    unfold search at he
    split at he
    · cases he; simp only [List.length_drop, List.length_cons]; omega
    · cases hs : search cs with
      | none => rw [hs] at he; cases he
      | some x =>
        obtain ⟨a', h', r'⟩ := x
        rw [hs] at he
        cases he
        have := ih a' hs
        simp only [List.length_cons] at this ⊢; omega

/-- headings and bodies after the first match, `split_text[1::2]` and `split_text[2::2]` of
`re.split`, 60-61: `t` is the text behind a heading `h` -/
def sections (h t : Str) : List (Str × Str) :=
  match hs : search t with
  | none => [(h, t)]
  | some (a, h', r) => (h, a) :: sections h' r
termination_by t.length
decreasing_by exact search_lt t a h' r hs

/-- `re.split(r"[\r\n]+", s)`, 62: the runs of line ends separate the pieces (arbin.py:64) -/
def splitLines : Str → List Str
  | [] => [[]]
  | c :: cs =>
    if c = '\r' ∨ c = '\n' then
      match cs with
      | [] => [[], []]
      | c' :: _ => if c' = '\r' ∨ c' = '\n' then splitLines cs else [] :: splitLines cs
    else match splitLines cs with
      | [] => [[c]]
      | p :: ps => (c :: p) :: ps

/-- `OrderedDict([...])` from pairs: a repeated key keeps its place and takes the last value
(arbin.py:65) -/
def ofPairs (l : List (Str × Str)) : Obj := l.foldl (fun o kv => o.put kv.1 (.str kv.2)) .nil

/-- `line.split("=", 1)` as a pair: a line without "=" makes `OrderedDict` raise (arbin.py:65) -/
def pairOf (line : Str) : Except Err (Str × Str) :=
  match split1 '=' line with
  | (k, some v) => .ok (k, v)
  | (_, none) => .error .valueError

/-- the loop body of `from_file`, 61-65 -/
def addSection (o : Obj) (s : Str × Str) : Except Err Obj := do
  let kvs ← mapE pairOf (splitLines (strip s.2))
  setP o (splitC '.' (replace '_' '.' s.1)) (.obj (ofPairs kvs))

/-- the loop (arbin.py:63-67) -/
def addAll : Obj → List (Str × Str) → Except Err Obj
  | o, [] => .ok o
  | o, s :: ss => do addAll (← addSection o s) ss

/-- `from_file`, 42-69 -/
def fromFile (text : Str) : Except Err Obj :=
  match search text with
  | none => .ok .nil
  | some (_, h, r) => addAll .nil (sections h r)

end Beep.Arbin
