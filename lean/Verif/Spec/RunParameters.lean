import Verif.Model.RunParameters
import Verif.Spec.Ingest
import Verif.Spec.Summary
import Verif.Spec.SummaryFull
import Mathlib.Data.Finset.Card
/-
Vocabulary for C119 and C120: columns of a row, and cycles that look like a diagnostic.
-/
namespace Beep.Spec.RunParameters
open Beep RunParameters

/-- the row has a value in the column -/
def In (r : Row) (name : String) (c : Cell) : Prop := Dict.get? r.vals name = some c

/-- two cells hold the same text or the same number -/
def Equals (a b : Cell) : Prop :=
  (∃ s, a = .text s ∧ b = .text s) ∨
  ∃ q : Rat, (a = .num (some q) ∨ ∃ n : Int, a = .int n ∧ q = n) ∧ (b = .num (some q) ∨ ∃ n : Int, b = .int n ∧ q = n)

/-- the row of a file has the parameter set -/
def OfSet (r : Dict String Cell) (set : Cell) : Prop :=
  ∃ c, Dict.get? r "diagnostic_parameter_set" = some c ∧ Equals c set

/-- the file of the row has the column -/
def HasColumn (r : Row) (name : String) : Prop := ∃ c, In r name c

/-- the numbers of a column of the file -/
def numbers (rows : List Row) (name : String) : List (Option Rat) :=
  rows.map (fun r : Row => match Dict.get? r.vals name with
    | some (Cell.int n) => some (n : Rat)
    | some (Cell.num v) => v
    | _ => none)

/-- `m` is the least number of the column; NaN if it has none -/
def Least (l : List (Option Rat)) (m : Option Rat) : Prop :=
  match m with
  | some v => SummaryFull.IsMin l v
  | none => ∀ v, v ∈ l → v = none

/-- `m` is the greatest number of the column; NaN if it has none -/
def Greatest (l : List (Option Rat)) (m : Option Rat) : Prop :=
  match m with
  | some v => Summary.IsMax l v
  | none => ∀ v, v ∈ l → v = none

/-- the steps of a cycle -/
def steps (d : Raw) (c : Int) : Finset Int := ((d.filter (fun x => x.1 = c)).map Prod.snd).toFinset

/-- two cycles consist of the same steps -/
def SameSteps (d : Raw) (c c' : Int) : Prop := ∀ s, (c, s) ∈ d ↔ (c', s) ∈ d

/-- the five cycles from `c` on have as many steps as the five from `c'` on, each as its counterpart -/
def SamePattern (d : Raw) (c c' : Int) : Prop :=
  ∀ i : Int, 0 ≤ i → i < 5 → (steps d (c + i)).card = (steps d (c' + i)).card

/-- no cycle comes more than six cycles after `c` -/
def NearEnd (d : Raw) (c : Int) : Prop := ∀ x ∈ d, x.1 ≤ c + 6

/-- a cycle of the data at which a diagnostic begins: it has the steps of the first cycle of the first or of
the second diagnostic, or it is close to the end of the data and its pattern is that of one of the two -/
def Begins (d : Raw) (second c : Int) : Prop :=
  (∃ s, (c, s) ∈ d) ∧ (SameSteps d c 1 ∨ SameSteps d c second ∨
    NearEnd d c ∧ (SamePattern d c 1 ∨ SamePattern d c second))

/-- the row has the columns of a run with diagnostics, and its diagnostics are of the type HPPC+RPT -/
def HppcRpt (r : Row) : Prop :=
  In r "diagnostic_type" (.text "HPPC+RPT") ∧ HasColumn r "diagnostic_start_cycle" ∧
    HasColumn r "diagnostic_interval"

end Beep.Spec.RunParameters
