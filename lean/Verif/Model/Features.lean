import Verif.Model.Text
import Verif.Model.Pandas
/-
Featurizers and feature matrices: beep/features/base.py.
Cells of feature tables, hyperparameter values, paths and metadata are arbitrary types.
-/
namespace Beep.Features
open Beep Text Pandas

/-! ### Featurizers -/

/-- what a featurizer reads from a datapath (base.py 75-86) -/
structure Datapath (P M I : Type) where
  isStructured : Bool
  paths : P
  metadata : M
  semiuniqueId : I

/-- a feature table: `pd.DataFrame` with the default index (features/base.py:44-196) -/
structure Frame (V : Type) where
  columns : List Str
  rows : List (List V)
  deriving DecidableEq

/-- a `BEEPFeaturizer` object (base.py 60-86); `none` in `linkedId` when made without a datapath -/
structure Featurizer (HV V P M I : Type) where
  hyperparameters : Dict Str HV
  datapath : Option (Datapath P M I)
  features : Option (Frame V)
  paths : P
  metadata : M
  linkedId : Option I

variable {HV V P M I : Type}

/-- base.py 64-73: the hyperparameters used.  An empty dictionary is falsy. -/
def chooseHyper (defaults : Dict Str HV) : Option (Dict Str HV) → Except Err (Dict Str HV)
  | none => .ok defaults
  | some [] => .ok defaults
  | some (kv :: h) =>
    if (Dict.keys defaults).all (fun k => Dict.has (kv :: h) k) then .ok (kv :: h)
    else .error .beepError

/-- base.py 60-86 `BEEPFeaturizer.__init__`; `noPaths` and `noMetadata` are `{}` -/
def construct (noPaths : P) (noMetadata : M) (defaults : Dict Str HV) (dp : Option (Datapath P M I))
    (hyper : Option (Dict Str HV)) : Except Err (Featurizer HV V P M I) := do
  let h ← chooseHyper defaults hyper
  match dp with
  | none => .ok ⟨h, none, none, noPaths, noMetadata, none⟩
  | some d =>
    if d.isStructured then .ok ⟨h, some d, none, d.paths, d.metadata, some d.semiuniqueId⟩
    else .error .beepError

/-- what `as_dict` saves (base.py 124-134); the features as columns -/
structure Saved (HV V P M I : Type) where
  features : List (Str × List V)
  hyperparameters : Dict Str HV
  paths : P
  metadata : M
  linkedId : Option I

/-- `DataFrame.to_dict("list")` (features/base.py:44-196, 199-363) -/
def toColumns (f : Frame V) : List (Str × List V) :=
  (List.range f.columns.length).zip f.columns |>.map
    (fun ic => (ic.2, f.rows.filterMap (fun r => r[ic.1]?)))

/-- `pd.DataFrame(dict of lists)`: as many rows as the first list
(features/base.py:44-196, 199-363) -/
def ofColumns (cs : List (Str × List V)) : Frame V :=
  { columns := cs.map Prod.fst
    rows := match cs with
      | [] => []
      | (_, vs) :: _ => (List.range vs.length).map (fun i => cs.filterMap (fun c => c.2[i]?)) }

/-- base.py 109-134 `as_dict` -/
def asDict (bf : Featurizer HV V P M I) : Except Err (Saved HV V P M I) :=
  match bf.features with
  | none => .error .beepError
  | some f => .ok ⟨toColumns f, bf.hyperparameters, bf.paths, bf.metadata, bf.linkedId⟩

/-- base.py 136-153 `from_dict` -/
def fromDict (noPaths : P) (noMetadata : M) (defaults : Dict Str HV) (d : Saved HV V P M I) :
    Except Err (Featurizer HV V P M I) := do
  let bf : Featurizer HV V P M I ← construct noPaths noMetadata defaults none (some d.hyperparameters)
  .ok { bf with
    features := some (ofColumns d.features)
    paths := d.paths
    metadata := d.metadata
    linkedId := d.linkedId }

/-! ### Feature matrices -/

/-- a featurizer as the matrix sees it: class name, `paths.get("structured")`, hyperparameters and
features (features/base.py:211-293) -/
structure Source (HV V : Type) where
  cls : Str
  path : Option Str
  hyper : Dict Str HV
  features : Option (Frame V)

/-- how Python writes hyperparameter values (`str`), and the SHA-256 digest in hexadecimal
(features/base.py:211-293) -/
structure Env (HV : Type) where
  render : HV → Str
  hash : Str → Str

/-- comparison of strings by code points (`sorted`) (features/base.py:236, 286) -/
def strLe : Str → Str → Bool
  | [], _ => true
  | _ :: _, [] => false
  | a :: s, b :: t => if a.toNat < b.toNat then true else if b.toNat < a.toNat then false else strLe s t

/-- base.py 236 -/
def sortedParams (h : Dict Str HV) : Dict Str HV := sortBy (fun a b => strLe a.1 b.1) h

/-- base.py 243 -/
def paramStr (env : Env HV) (h : Dict Str HV) : Str :=
  join ['-'] ((sortedParams h).map (fun kv => kv.1 ++ ':' :: env.render kv.2))

/-- `OP_DELIMITER` (base.py 209) -/
def delim : Str := [':', ':']

/-- base.py 248 -/
def opId (env : Env HV) (s : Source HV V) : Str := s.cls ++ delim ++ env.hash (paramStr env s.hyper)

/-- base.py 252, 256-259: the identifier of a feature on a specific file -/
def fileId (env : Env HV) (s : Source HV V) (fname c : Str) : Str :=
  fname ++ delim ++ opId env s ++ delim ++ c

/-- base.py 276: the name of the column -/
def colName (env : Env HV) (s : Source HV V) (c : Str) : Str := c ++ delim ++ opId env s

/-- what has been collected so far: the identifiers, and per featurizer its file and cells
(`dfs_by_file` grouped only when the rows are built) (features/base.py:211-293) -/
structure Collected (V : Type) where
  ids : List Str
  entries : List (Str × List (Str × V))

/-- base.py 217-281, one pass of the loop -/
def collectOne (env : Env HV) (st : Collected V) (s : Source HV V) : Except Err (Collected V) :=
  match s.features with
  | none => .error .beepError
  | some ⟨columns, [row]⟩ =>
    match s.path with
    | none => .error .beepError
    | some [] => .error .beepError
    | some (ch :: p) =>
      let new := columns.map (fileId env s (ch :: p))
      if new.any (fun c => c ∈ st.ids) then .error .beepError
      else .ok { ids := st.ids ++ new
                 entries := st.entries ++ [(ch :: p, (columns.map (colName env s)).zip row)] }
  | some ⟨_, _⟩ => .error .beepError

/-- base.py 217-281 -/
def collect (env : Env HV) : Collected V → List (Source HV V) → Except Err (Collected V)
  | st, [] => .ok st
  | st, s :: ss => do
    let st' ← collectOne env st s
    collect env st' ss

/-- a feature matrix: `none` is a missing cell (features/base.py:211-293) -/
structure Matrix (V : Type) where
  columns : List Str
  rows : List (Str × List (Option V))

/-- base.py 283-287: the row of a file, its columns sorted -/
def fileRow (es : List (Str × List (Str × V))) (f : Str) : List (Str × V) :=
  sortBy (fun a b => strLe a.1 b.1) ((es.filter (fun e => e.1 = f)).flatMap Prod.snd)

/-- base.py 211-293 `BEEPFeatureMatrix.__init__`; `none` is `matrix = None` -/
def matrix (env : Env HV) (bfs : List (Source HV V)) : Except Err (Option (Matrix V)) :=
  match bfs with
  | [] => .ok none
  | _ :: _ => do
    let st ← collect env ⟨[], []⟩ bfs
    let files := unique (st.entries.map Prod.fst)
    let rows := files.map (fun f => (f, fileRow st.entries f))
    -- 288: an outer join of the columns
    let columns := unique (rows.flatMap (fun r => r.2.map Prod.fst))
    .ok (some { columns := columns
                rows := rows.map (fun r => (r.1, columns.map (Dict.get? r.2))) })

end Beep.Features
