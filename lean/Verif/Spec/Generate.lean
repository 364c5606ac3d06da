import Verif.Model.Generate
/-
Vocabulary for C56: what should become of a row, as relations.
-/
namespace Beep.Spec.Generate
open Beep
open _root_.Beep.Batch (Exc join)
open Generate

variable {P G : Type}

/-- the template is a Maccor procedure, by its name -/
def Procedure (r : Row) : Prop := ".000".toList <:+: r.template

/-- the builder of the row makes the procedure `p`: an EXP.000 template of 23 steps, a template of 72
steps, or a template of 96 steps for one of the three kinds of project -/
inductive Procedures (env : Env P G) (i : Nat) (r : Row) : P → Prop
  | exp (p) : env.length r.template = .ok (some 23) → r.template = "EXP.000".toList →
      (env.hasDiag = true → ∃ g, env.diag i r = .ok g) → env.fromExp i r = .ok p → Procedures env i r p
  | v2 (p q g) : env.length r.template = .ok (some 72) → env.hasDiag = true → env.diag i r = .ok g →
      env.regcyclev2 i r = .ok p → env.diagcyclev2 i r p g = .ok q → Procedures env i r q
  | charging (p q g) : env.length r.template = .ok (some 96) → env.hasDiag = true → env.diag i r = .ok g →
      r.project = "RapidC".toList → env.charging i r = .ok p → env.diagcyclev3 i r p g = .ok q →
      Procedures env i r q
  | driving (p q g) : env.length r.template = .ok (some 96) → env.hasDiag = true → env.diag i r = .ok g →
      r.project = "Drive".toList → env.driving i r = .ok p → env.diagcyclev3 i r p g = .ok q →
      Procedures env i r q
  | regular (p q g) : env.length r.template = .ok (some 96) → env.hasDiag = true → env.diag i r = .ok g →
      r.project ≠ "RapidC".toList → r.project ≠ "Drive".toList → env.regcyclev3 i r = .ok p →
      env.diagcyclev3 i r p g = .ok q → Procedures env i r q

/-- `s` is the name of the file of a row without its ending: project and number, the number with at
least six digits -/
def Names (r : Row) (s : Str) : Prop :=
  ∃ zeros, s = r.project ++ '_' :: (List.replicate zeros '0' ++ (toString r.seqNum).toList) ∧
    (zeros + (toString r.seqNum).toList.length = 6 ∨ zeros = 0 ∧ 6 ≤ (toString r.seqNum).toList.length)

/-- the row is to become the protocol `p` in the file `name`, and it can be written -/
inductive Generates (env : Env P G) (dir : Str) (i : Nat) (r : Row) : Str → P → Prop
  | procedure (p stem) : Names r stem → Procedure r → Procedures env i r p →
      env.save (join (join dir "procedures".toList) (stem ++ ".000".toList)) p = none →
      Generates env dir i r (join (join dir "procedures".toList) (stem ++ ".000".toList)) p
  | settings (p stem) : Names r stem → r.template = "formationV1.mps".toList → env.formation i r = .ok p →
      env.save (join (join dir "settings".toList) (stem ++ ".mps".toList)) p = none →
      Generates env dir i r (join (join dir "settings".toList) (stem ++ ".mps".toList)) p

/-- the template of the row is not supported: an unknown procedure, a schedule, or anything else -/
def Unsupported (env : Env P G) (i : Nat) (r : Row) : Prop :=
  if ".000".toList <:+: r.template then
    (env.hasDiag = true → ∃ g, env.diag i r = .ok g) ∧
    ∃ len, env.length r.template = .ok len ∧ len ≠ some 72 ∧ len ≠ some 96 ∧
      ¬ (len = some 23 ∧ r.template = "EXP.000".toList)
  else r.template ≠ "formationV1.mps".toList

/-- the row can be handled: generated, or reported as unsupported -/
def Handled (env : Env P G) (dir : Str) (i : Nat) (r : Row) : Prop :=
  (∃ name p, Generates env dir i r name p) ∨ Unsupported env i r

/-- the entry a row that is not generated should leave: a schedule is not implemented, any other
template is not found and named -/
def Reports (r : Row) (f : Failure) : Prop :=
  if ".sdu".toList <:+: r.template ∧ ¬ ".000".toList <:+: r.template then
    f = ⟨"Schedule file generation is not yet implemented".toList, "Not Implemented".toList⟩
  else f.error = "Not Found".toList ∧ f.comment = "Unable to find template: ".toList ++ r.template

end Beep.Spec.Generate
