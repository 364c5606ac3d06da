import Verif.Model.Splitter
import Verif.Model.LinearModel
/-
One feature matrix used by several learning objects, one after the other:
beep/prediction/beep_data_splitter.py and beep/model.py.  The state is the frame the caller's
`BEEPFeatureMatrix` holds; the objects made from it keep a reference to it.
-/
namespace Beep.SharedMatrix
open Beep Text Table

variable {H : Type}

/-- what the caller does with the matrix (beep_data_splitter.py:96-111, model.py:90-109, 298-302) -/
inductive Use (H : Type) where
  /-- `BEEPDataSplitter(matrix, ...)` -/
  | splitter (env : Splitter.Env) (a : Splitter.Args)
  /-- `BEEPLinearModelExperiment(matrix, target_matrix, ...)` -/
  | experiment (env : LinearModel.Env H) (a : LinearModel.Args H) (targets : Table)
  /-- `experiment.predict(matrix, homogenize_features)` of an experiment made earlier -/
  | predict (e : LinearModel.Exp H) (homogenize : Option Bool)

/-- what the call returns (beep_data_splitter.py:96-226, model.py:90-208, 298-377) -/
inductive Outcome (H : Type) where
  | splitter (s : Splitter.Splitter)
  | experiment (e : LinearModel.Exp H)
  | predictions (values : List (Str × List Rat)) (dropped : List Str)

/-- one call: the frame it leaves in the caller's matrix, and what it returns.  The splitter renames
the columns before it checks anything (beep_data_splitter.py:113-118, 294-298); the experiment works on
the copy made by `replace` (model.py:120-125); `predict` renames the caller's frame (model.py:326-331,
447-450) -/
def use (u : Use H) (m : Table) : Table × Except Err (Outcome H) :=
  match u with
  | .splitter env a =>
    (if a.homogenize then m.rename stripName else m, (Splitter.construct env a m).map .splitter)
  | .experiment env a tm => (m, (LinearModel.construct env a m tm).map .experiment)
  | .predict e h =>
    let r := LinearModel.predict e m h
    (r.1, r.2.map (fun p => .predictions p.1 p.2))

/-- a history of calls on the same matrix; the caller goes on after an exception
(beep_data_splitter.py:96-226, model.py:90-208, 298-377) -/
def uses : List (Use H) → Table → Table × List (Except Err (Outcome H))
  | [], m => (m, [])
  | u :: us, m =>
    let r := use u m
    let s := uses us r.1
    (s.1, r.2 :: s.2)

end Beep.SharedMatrix
