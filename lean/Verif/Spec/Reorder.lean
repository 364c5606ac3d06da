import Verif.Model.SummaryFull
import Verif.Model.CyclesInterp
import Verif.Model.DiagInterp
/-
Specification vocabulary for raw data whose cycles are stored in another order.
-/
namespace Beep.Spec.Reorder

/-- two tables in which every cycle has the same rows in the same order; the rows of different
cycles may be stored in any order and mixed with each other -/
def SameWithinCycles {α : Type} (cycle : α → Int) (a b : List α) : Prop :=
  ∀ c : Int, a.filter (fun r => decide (cycle r = c)) = b.filter (fun r => decide (cycle r = c))

/-- two parts of a table have no cycle in common -/
def NoCommonCycle {α : Type} (cycle : α → Int) (a b : List α) : Prop :=
  ∀ x ∈ a, ∀ y ∈ b, cycle x ≠ cycle y

end Beep.Spec.Reorder
