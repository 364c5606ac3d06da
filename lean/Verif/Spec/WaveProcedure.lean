import Verif.Model.WaveProcedure
import Verif.Spec.Inserted
/-
Vocabulary for C121 and C122: procedures that play a waveform file.
-/
namespace Beep.Spec.WaveProcedure
open Beep MaccorProcedure WaveProcedure Spec.MaccorProcedure Spec.Inserted

/-- `path` is the waveform file `name`.mwf (in any case) in the directory `dir`, which is written with
its last slash -/
def WaveFile (path dir name : Str) : Prop :=
  ∃ ext : Str, path = dir ++ (name ++ '.' :: ext) ∧ (dir = [] ∨ dir.getLast? = some '/') ∧ '/' ∉ name ∧
    ext.map Char.toLower = "mwf".toList

/-- a limit of a step -/
def limitOf (s : Step) (key : Str) : Option Val := s.limits.bind (fun l => Dict.get? l key)

/-- the four settings a waveform step must not have -/
def blankKeys : List Str := ["Range".toList, "Option1".toList, "Option2".toList, "Option3".toList]

/-- step `i` plays the waveform `name` without any condition of its own; its limits and other settings
are those of the template -/
def Plays (p p' : List Step) (i : Nat) (name : Str) : Prop :=
  ∃ t s, p[i]? = some t ∧ p'[i]? = some s ∧
    s.stepType = "FastWave".toList ∧ s.stepMode = some [] ∧ s.stepValue = .text name ∧
    s.ends = none ∧ s.reports = none ∧
    (∀ k ∈ blankKeys, Dict.get? s.other k = some (.text [])) ∧
    (∀ k, k ∉ blankKeys → Dict.get? s.other k = Dict.get? t.other k) ∧
    ∀ key, limitOf s key = limitOf t key

/-- what follows the first charging stage: constant current to the cutoff voltage, hold, rest -/
def SecondStage (r : RegParam) (p : List Step) (i : Nat) : Prop :=
  Commands p i "Charge" "Current" 1000 (r.chargeCC2 * r.capacityNominal) ∧
  EndsOn p i 0 "Voltage" 1000 r.chargeCutoffVoltage ∧
  (∃ s, p[i + 1]? = some s ∧ s.stepType = "Charge".toList ∧ s.stepMode = some "Voltage".toList ∧
    s.stepValue = .num r.chargeCutoffVoltage) ∧ Timed p (i + 1) ∧
  Rests p (i + 2)

/-- the initial rest of the protocol with this index: 3 h and 12 min for each of 96 slots -/
def StartsAfter (p : List Step) (index : Int) : Prop :=
  EndTime p 0 0 (10800 + 720 * (index % 96).toNat)

end Beep.Spec.WaveProcedure
