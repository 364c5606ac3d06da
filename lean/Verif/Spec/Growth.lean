import Verif.Model.SummaryFull
import Verif.Model.Interp
/-
Specification vocabulary for structuring a run again after more data were recorded.
-/
namespace Beep.Spec.Growth

/-- cycle `c` is over before the additional data, whose cycle numbers are given, begin -/
def Finished (later : List Int) (c : Int) : Prop := ∀ b ∈ later, c < b

/-- two rows of the summary with the same values in every column but the charge duration -/
def SameButDuration (a b : Summary.Row) : Prop :=
  a.label = b.label ∧ a.cycle = b.cycle ∧ a.dchgCap = b.dchgCap ∧ a.chgCap = b.chgCap ∧
  a.dchgEn = b.dchgEn ∧ a.chgEn = b.chgEn ∧ a.efficiency = b.efficiency ∧
  a.chgThroughput = b.chgThroughput ∧ a.enThroughput = b.enThroughput

/-- the cycles 0, 1, … up to `c` all occur among the given cycle numbers -/
def NoGap (cycles : List Int) (c : Int) : Prop := ∀ k : Int, 0 ≤ k → k ≤ c → k ∈ cycles

/-- the value a capacity axis is made of: charge or discharge capacity of a record -/
def capacityOf (axis : String) (r : Steps.Row) : Option Rat :=
  if axis = "charge_capacity" then r.charge else r.discharge

/-- the additional records keep within the capacities seen before -/
def Within (axis : String) (raw more : List Steps.Row) : Prop :=
  ∀ b ∈ more, ∀ v, capacityOf axis b = some v →
    ∃ lo ∈ raw, ∃ hi ∈ raw, ∃ a z, capacityOf axis lo = some a ∧ capacityOf axis hi = some z ∧ a ≤ v ∧ v ≤ z

end Beep.Spec.Growth
