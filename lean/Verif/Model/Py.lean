/-
Shared pieces of the Python runtime used by the models: exceptions as values,
insertion ordered dictionaries, substring tests.  They model CPython built-ins,
not a file of /repo; the callers cite the code.
-/
namespace Beep

/-- The exception classes the modelled code can raise
(CPython; raised e.g. at model.py:90-208, validate.py:124-213). -/
inductive Err where
  | valueError
  | typeError
  | keyError
  | indexError
  | runtimeError
  | assertionError
  | unboundLocal
  | notImplemented
  | zeroDivision
  | attributeError
  | fileNotFound
  | beepError          -- BEEP*Error classes
  deriving DecidableEq, Repr

/-- A Python `dict` (insertion ordered): association list.  The well formedness
condition "keys are distinct" is `Dict.WF` and is stated where it is needed
(CPython; e.g. the dictionaries of diagnostic.py:59-106). -/
abbrev Dict (κ ν : Type) := List (κ × ν)

namespace Dict
variable {κ ν : Type} [DecidableEq κ]

/-- `d.keys()` (CPython; used at diagnostic.py:59-106) -/
def keys (d : Dict κ ν) : List κ := d.map Prod.fst

/-- distinct keys, true of every Python dict (CPython) -/
def WF (d : Dict κ ν) : Prop := (keys d).Nodup

/-- needed to check the invariant on examples; it models no code -/
instance (d : Dict κ ν) : Decidable (WF d) := inferInstanceAs (Decidable (keys d).Nodup)

/-- `d.get(k)` (`none` when absent; `d[k]` raises `KeyError` in that case)
(CPython; used at diagnostic.py:59-106, features/base.py:211-293) -/
def get? : Dict κ ν → κ → Option ν
  | [], _ => none
  | (k', v) :: d, k => if k' = k then some v else get? d k

/-- `d[k] = v`: overwrites in place, appends when the key is new
(CPython; used at diagnostic.py:59-106, features/base.py:211-293) -/
def set : Dict κ ν → κ → ν → Dict κ ν
  | [], k, v => [(k, v)]
  | (k', v') :: d, k, v => if k' = k then (k, v) :: d else (k', v') :: set d k v

/-- in-place update of the value stored under `k` (`d[k].add(x)`); callers use it
only on keys that are present (CPython; used at diagnostic.py:109-203) -/
def modify : Dict κ ν → κ → (ν → ν) → Dict κ ν
  | [], _, _ => []
  | (k', v') :: d, k, f => if k' = k then (k', f v') :: d else (k', v') :: modify d k f

/-- `k in d` (CPython; used at diagnostic.py:59-106) -/
def has (d : Dict κ ν) (k : κ) : Bool := (get? d k).isSome

/-- `d.pop(k, None)` as a new dict (CPython; used at base.py:273) -/
def erase : Dict κ ν → κ → Dict κ ν
  | [], _ => []
  | (k', v) :: d, k => if k' = k then d else (k', v) :: erase d k

end Dict

/-- Python `needle in hay` for strings, over character lists (CPython; used at diagnostic.py:89). -/
def containsSub (needle : List Char) : List Char → Bool
  | [] => needle.isEmpty
  | c :: cs => needle.isPrefixOf (c :: cs) || containsSub needle cs

/-- Python `s.lower()` restricted to ASCII letters (simplification)
(CPython; used at diagnostic.py:89). -/
def lower (s : String) : List Char := s.toList.map Char.toLower

/-- `pd.Series.unique()` / `set` iteration in order of first appearance
(pandas; used at base.py:630, diagnostic.py:190-195) -/
def unique {α : Type} [DecidableEq α] : List α → List α
  | [] => []
  | a :: as => a :: (unique as).filter (· ≠ a)

end Beep
