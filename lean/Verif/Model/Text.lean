import Verif.Model.Dash
/-
Text functions of Python used by the file formats, over lists of characters.  They model
CPython built-ins, not a file of /repo.
-/
namespace Beep.Text
open Beep

/-- `c.isspace()` for the characters of latin-1, the set removed by `str.strip()`
(CPython; used through arbin.py:64, biologic.py:72-119) -/
def isWs (c : Char) : Bool := c.toNat ∈ [9, 10, 11, 12, 13, 28, 29, 30, 31, 32, 133, 160]

/-- `s.lstrip()` (CPython; used through biologic.py:72-119) -/
def lstrip (s : Str) : Str := s.dropWhile isWs

/-- `s.rstrip()` (CPython; used through biologic.py:72-119) -/
def rstrip (s : Str) : Str := (s.reverse.dropWhile isWs).reverse

/-- `s.strip()` (CPython; used at arbin.py:64, biologic.py:72-119) -/
def strip (s : Str) : Str := rstrip (lstrip s)

/-- `s.ljust(w)` (CPython; used at biologic.py:162-165, maccor_to_biologic_mb.py:484-491) -/
def ljust (w : Nat) (s : Str) : Str := s ++ List.replicate (w - s.length) ' '

/-- `s.center(w)`: CPython puts `m / 2 + (m & w & 1)` blanks on the left of `m`
(CPython; used at protocol/maccor.py:75-106) -/
def center (w : Nat) (s : Str) : Str :=
  let m := w - s.length
  let l := m / 2 + (m % 2) * (w % 2)
  List.replicate l ' ' ++ s ++ List.replicate (m - l) ' '

/-- `s.split(c)`: always at least one piece (CPython; used at maccor_to_biologic_mb.py:165) -/
def splitC (c : Char) : Str → List Str
  | [] => [[]]
  | x :: xs =>
    if x = c then [] :: splitC c xs
    else match splitC c xs with
      | [] => [[x]]
      | p :: ps => (x :: p) :: ps

/-- `sep.join(l)` (CPython; used at arbin.py:101-105) -/
def join (sep : Str) : List Str → Str
  | [] => []
  | [a] => a
  | a :: b :: l => a ++ sep ++ join sep (b :: l)

/-- `s.split(c, 1)`: one or two pieces (CPython; used at arbin.py:65, biologic.py:90) -/
def split1 (c : Char) : Str → Str × Option Str
  | [] => ([], none)
  | x :: xs => if x = c then ([], some xs) else ((x :: (split1 c xs).1), (split1 c xs).2)

/-- `s.replace(a, b)` for single characters (CPython; used at structure/maccor.py:269) -/
def replace (a b : Char) (s : Str) : Str := s.map (fun c => if c = a then b else c)

/-- `s.encode("latin-1")`: fails on a character above 255.  The decoded text is the same list of
characters (CPython; used at arbin.py:109, biologic.py:180). -/
def latin1 (s : Str) : Except Err Str :=
  if s.all (fun c => c.toNat < 256) then .ok s else .error .valueError

end Beep.Text
