import Verif.Model.Features
/-
Vocabulary for the statements about featurizers and feature matrices: C45-C47.
-/
namespace Beep.Spec.Features
open Beep Text Features

variable {HV V : Type}

/-- the source was computed on the file `f`, and its feature `c` has the value `v` -/
def Has (s : Source HV V) (f c : Str) (v : V) : Prop :=
  s.path = some f ∧ ∃ (fr : Frame V) (row : List V) (i : Nat), s.features = some fr ∧ fr.rows = [row] ∧
    fr.columns[i]? = some c ∧ row[i]? = some v

/-- a feature table as a featurizer makes it: distinct columns, full rows -/
def GoodFrame (fr : Frame V) : Prop :=
  fr.columns.Nodup ∧ ∀ r ∈ fr.rows, r.length = fr.columns.length

/-- what Python guarantees: class names contain no colon, dictionaries have distinct keys, tables are
rectangular -/
def GoodSource (s : Source HV V) : Prop :=
  ':' ∉ s.cls ∧ Dict.WF s.hyper ∧ ∀ fr, s.features = some fr → GoodFrame fr

/-- features that can be joined: one row, made from a named file -/
def Joinable (s : Source HV V) : Prop :=
  (∃ fr row, s.features = some fr ∧ fr.rows = [row]) ∧ ∃ f, s.path = some f ∧ f ≠ []

/-- digests have 64 characters -/
def Digest (env : Env HV) : Prop := ∀ x, (env.hash x).length = 64

/-- the cell of the matrix in row `f` and column `c`; `none` when missing -/
def cell (m : Matrix V) (f c : Str) : Option V :=
  match m.rows.find? (fun r => r.1 = f) with
  | none => none
  | some r => match (m.columns.zip r.2).find? (fun x => x.1 = c) with
    | none => none
    | some x => x.2

/-- the two sources share a feature: same file, same class, same hyperparameters, same feature -/
def Shares (s t : Source HV V) : Prop :=
  s.path = t.path ∧ s.cls = t.cls ∧ s.hyper.Perm t.hyper ∧
    ∃ fs ft c, s.features = some fs ∧ t.features = some ft ∧ c ∈ fs.columns ∧ c ∈ ft.columns

end Beep.Spec.Features
