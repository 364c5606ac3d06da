import Verif.Model.Batch
/-
`generate_protocol_files_from_csv` of `beep/protocol/generate_protocol.py`.
-/
namespace Beep.Generate
open Beep Batch

/-- the columns of a row the function itself looks at.  They are taken to be present and of the
expected types; the other columns are only handed on to the builders
(generate_protocol.py:89-242). -/
structure Row where
  template : Str
  project : Str
  seqNum : Nat
  deriving DecidableEq, Repr

/-- what the function calls.  `P` is a protocol, `G` a row of diagnostic parameters.  The builders are
functions of the position and the row (generate_protocol.py:89-242). -/
structure Env (P G : Type) where
  /-- `template_detection` of the template in `PROCEDURE_TEMPLATE_DIR` -/
  length : Str → Except Exc (Option Nat)
  /-- is there a column `diagnostic_parameter_set` -/
  hasDiag : Bool
  /-- the diagnostic parameters of the row -/
  diag : Nat → Row → Except Exc G
  /-- `Procedure.from_exp` -/
  fromExp : Nat → Row → Except Exc P
  /-- `Procedure.from_regcyclev2` -/
  regcyclev2 : Nat → Row → Except Exc P
  /-- `protocol.add_procedure_diagcyclev2` -/
  diagcyclev2 : Nat → Row → P → G → Except Exc P
  /-- `insert_charging_parametersv1` and `Procedure.generate_procedure_chargingv1` -/
  charging : Nat → Row → Except Exc P
  /-- `insert_driving_parametersv1` and `Procedure.generate_procedure_drivingv1` -/
  driving : Nat → Row → Except Exc P
  /-- `Procedure.generate_procedure_regcyclev3` -/
  regcyclev3 : Nat → Row → Except Exc P
  /-- `protocol.generate_procedure_diagcyclev3` -/
  diagcyclev3 : Nat → Row → P → G → Except Exc P
  /-- `Settings.from_file` and `formation_protocol_bcs` -/
  formation : Nat → Row → Except Exc P
  /-- `protocol.to_file`: does it raise -/
  save : Str → P → Option Exc

/-- an entry of `file_generation_failures` (generate_protocol.py:89-242) -/
structure Failure where
  comment : Str
  error : Str
  deriving DecidableEq, Repr

/-- `"{:06d}".format(n)` (generate_protocol.py:89-242) -/
def six (n : Nat) : Str :=
  let d := (toString n).toList
  List.replicate (6 - d.length) '0' ++ d

/-- `filename_prefix` (generate_protocol.py:124-129) -/
def filePrefix (r : Row) : Str := r.project ++ '_' :: six r.seqNum

/-- what the body of the loop does with a row that is not raised out of
(generate_protocol.py:89-242) -/
inductive Made (P : Type) where
  | file (name : Str) (p : P)
  | fail (f : Failure)

/-- the entry for a template that is not known (generate_protocol.py:170-177, 195-202) -/
def notFound (r : Row) : Failure :=
  ⟨"Unable to find template: ".toList ++ r.template, "Not Found".toList⟩

/-- the entry for an Arbin schedule (generate_protocol.py:186-193) -/
def notImplemented : Failure :=
  ⟨"Schedule file generation is not yet implemented".toList, "Not Implemented".toList⟩

variable {P G : Type}

/-- generate_protocol.py:133-141: the diagnostic parameters of the row, if there is such a column -/
def diagOf (env : Env P G) (i : Nat) (r : Row) : Except Exc (Option G) :=
  if env.hasDiag then
    match env.diag i r with
    | .ok g => .ok (some g)
    | .error e => .error e
  else .ok none

/-- use of the local variable `diagnostic_params`; it is unbound when there is no such column
(generate_protocol.py:89-242) -/
def useDiag (g : Option G) : Except Exc G :=
  match g with
  | some g => .ok g
  | none => .error (.other "UnboundLocalError".toList)

/-- generate_protocol.py:143-177: the Maccor procedure of a row; `none` when the template is not known -/
def maccor (env : Env P G) (i : Nat) (r : Row) : Except Exc (Option P) :=
  match env.length r.template with
  | .error e => .error e
  | .ok len => match diagOf env i r with
    | .error e => .error e
    | .ok g =>
      if len = some 23 ∧ r.template = "EXP.000".toList then (env.fromExp i r).map some
      else if len = some 72 then
        match env.regcyclev2 i r with
        | .error e => .error e
        | .ok p => match useDiag g with
          | .error e => .error e
          | .ok g => (env.diagcyclev2 i r p g).map some
      else if len = some 96 then
        match (if r.project = "RapidC".toList then env.charging i r
               else if r.project = "Drive".toList then env.driving i r
               else env.regcyclev3 i r) with
        | .error e => .error e
        | .ok p => match useDiag g with
          | .error e => .error e
          | .ok g => (env.diagcyclev3 i r p g).map some
      else .ok none

/-- the body of the loop up to the writing of the file (generate_protocol.py:121-203) -/
def row (env : Env P G) (dir : Str) (i : Nat) (r : Row) : Except Exc (Made P) :=
  if containsSub ".000".toList r.template then
    match maccor env i r with
    | .error e => .error e
    | .ok none => .ok (.fail (notFound r))
    | .ok (some p) => .ok (.file (join (join dir "procedures".toList) (filePrefix r ++ ".000".toList)) p)
  else if containsSub ".mps".toList r.template && r.template == "formationV1.mps".toList then
    match env.formation i r with
    | .error e => .error e
    | .ok p => .ok (.file (join (join dir "settings".toList) (filePrefix r ++ ".mps".toList)) p)
  else if containsSub ".sdu".toList r.template then .ok (.fail notImplemented)
  else .ok (.fail (notFound r))

/-- the lists filled by the loop (generate_protocol.py:89-242) -/
structure State (P : Type) where
  generated : List Str := []
  failures : List Failure := []
  names : List Str := []
  /-- `result` is still `""` -/
  clean : Bool := true
  /-- the files written, latest last -/
  written : List (Str × P) := []

/-- the loop over the rows (generate_protocol.py:121-208) from row `i` on.  An exception leaves the
function; the state at that moment is kept for the statement. -/
def loop (env : Env P G) (dir : Str) : Nat → List Row → State P → State P × Option Exc
  | _, [], s => (s, none)
  | i, r :: rs, s =>
    match row env dir i r with
    | .error e => (s, some e)
    | .ok (.fail f) => loop env dir (i + 1) rs { s with failures := s.failures ++ [f], clean := false }
    | .ok (.file name p) => match env.save name p with
      | some e => (s, some e)
      | none => loop env dir (i + 1) rs
          { s with generated := s.generated ++ [name], names := s.names ++ [filePrefix r ++ ['_']],
                   written := s.written ++ [(name, p)] }

/-- what the function returns, with the files it wrote; `message` is represented by its numbers:
generated, failed, total (generate_protocol.py:89-242) -/
structure Result (P : Type) where
  generated : List Str
  failures : List Failure
  success : Bool
  message : Nat × Nat × Nat
  names : List Str
  written : List (Str × P)

/-- `generate_protocol_files_from_csv` (generate_protocol.py:89-242) on the rows of the table -/
def generate (env : Env P G) (dir : Str) (rows : List Row) : Except Exc (Result P) :=
  match loop env dir 0 rows {} with
  | (_, some e) => .error e
  | (s, none) =>
    .ok { generated := s.generated, failures := s.failures, success := s.clean,
          message := (s.generated.length, s.failures.length, s.generated.length + s.failures.length),
          names := s.names, written := s.written }

end Beep.Generate
