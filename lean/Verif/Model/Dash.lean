import Verif.Model.Py
/-
Model of DashOrderedDict, beep/utils/__init__.py 9-37: a nested ordered dictionary with paths.
The methods call pydash (`get`, `set_with`, `unset`), a library that is not in /repo; the
functions below follow its documented behaviour for paths whose keys contain no dot, bracket or
backslash and are not numbers.
-/
namespace Beep

/-- text (the keys and values of utils/__init__.py:9-37) -/
abbrev Str := List Char

namespace Dash

/-- an `OrderedDict` whose values are texts or dictionaries, in insertion order
(utils/__init__.py:9-37) -/
inductive Obj where
  | nil
  | leaf (k v : Str) (rest : Obj)
  | node (k : Str) (sub rest : Obj)
  deriving DecidableEq, Repr

/-- a value in the dictionary (utils/__init__.py:9-37) -/
inductive Val where
  | str (s : Str)
  | obj (o : Obj)
  deriving DecidableEq, Repr

/-- `list(o.keys())` (utils/__init__.py:9-37) -/
def Obj.keys : Obj → List Str
  | .nil => []
  | .leaf k _ r => k :: r.keys
  | .node k _ r => k :: r.keys

/-- `o[k]`, `none` when the key is missing (utils/__init__.py:9-37) -/
def Obj.find : Obj → Str → Option Val
  | .nil, _ => none
  | .leaf k v r, x => if k = x then some (.str v) else r.find x
  | .node k s r, x => if k = x then some (.obj s) else r.find x

/-- an entry in front of a dictionary (utils/__init__.py:9-37) -/
def Obj.cons (k : Str) : Val → Obj → Obj
  | .str s, r => .leaf k s r
  | .obj o, r => .node k o r

/-- `o[k] = v`: in place when the key exists, else at the end (utils/__init__.py:9-37) -/
def Obj.put : Obj → Str → Val → Obj
  | .nil, x, w => Obj.cons x w .nil
  | .leaf k v r, x, w => if k = x then Obj.cons x w r else .leaf k v (r.put x w)
  | .node k s r, x, w => if k = x then Obj.cons x w r else .node k s (r.put x w)

/-- `del o[k]` when the key exists (utils/__init__.py:9-37) -/
def Obj.del : Obj → Str → Obj
  | .nil, _ => .nil
  | .leaf k v r, x => if k = x then r else .leaf k v (r.del x)
  | .node k s r, x => if k = x then r else .node k s (r.del x)

/-- `get_path`, 25-26 (pydash `get`), for a non-empty path; `none` is the default -/
def getP : Obj → List Str → Option Val
  | _, [] => none
  | o, [k] => o.find k
  | o, k :: k' :: p =>
    match o.find k with
    | some (.obj s) => getP s (k' :: p)
    | _ => none

/-- `set`, 22-23 (pydash `set_with` with a customizer that makes an empty `OrderedDict`): missing
dictionaries on the way are created; a text on the way cannot have a key and raises. -/
def setP : Obj → List Str → Val → Except Err Obj
  | _, [], _ => .error .indexError
  | o, [k], w => .ok (o.put k w)
  | o, k :: k' :: p, w =>
    match o.find k with
    | some (.str _) => .error .attributeError
    | some (.obj s) => do return o.put k (.obj (← setP s (k' :: p) w))
    | none => do return o.put k (.obj (← setP .nil (k' :: p) w))

/-- `unset`, 28-29 (pydash `unset`): nothing happens when the path does not exist -/
def unsetP : Obj → List Str → Obj
  | o, [] => o
  | o, [k] => o.del k
  | o, k :: k' :: p =>
    match o.find k with
    | some (.obj s) => o.put k (.obj (unsetP s (k' :: p)))
    | _ => o

end Dash
end Beep
