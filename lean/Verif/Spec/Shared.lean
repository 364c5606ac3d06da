import Verif.Model.Shared
/-
Vocabulary for raw tables that are shared.
-/
namespace Beep.Spec.Shared
open Beep.Datapath (Frame Val)
open Beep.Shared

/-- the columns that may be added to a raw table -/
def mayBeAdded : List String := ["temperature", "internal_resistance", "time_since_cycle_start"]

/-- the rows and every column of `f` are still there in `g`, except that the minutes of the cycle
may have been written; nothing else is new -/
def Kept (f g : Frame) : Prop :=
  g.index = f.index ∧
  (∀ c v, c ≠ "time_since_cycle_start" → f.cols.get? c = some v → g.cols.get? c = some v) ∧
  ∀ c, f.cols.get? c = none → g.cols.get? c ≠ none → c ∈ mayBeAdded

/-- the call constructs a datapath from the table `t` -/
def Uses (t : Nat) : Op → Prop
  | .construct t' _ => t' = t
  | _ => False

/-- two selections of cycles to leave out are the same -/
def SameCycles (a b : List Int) : Prop := ∀ c, c ∈ a ↔ c ∈ b

/-- the arguments of a call `structure()` without arguments, as documented -/
def standard : Args where
  vRange := none
  resolution := 1000
  diagResolution := 500
  nominal := 11 / 10
  fullFast := 4 / 5
  chargeAxis := "charge_capacity"
  dischargeAxis := "voltage"
  exclude := []

/-- the keyword is given with this value, or it is not given and the value is the standard one -/
def GivenAs (kw : Dict String Rec) (name : String) (value std : Rec) : Prop :=
  kw.get? name = some value ∨ (kw.get? name = none ∧ value = std)

/-- the arguments are those the call gives by name, and the standard ones for the others -/
def Given (kw : Dict String Rec) (a : Args) : Prop :=
  GivenAs kw "v_range" (.range a.vRange) (.range standard.vRange) ∧
  GivenAs kw "resolution" (.count a.resolution) (.count standard.resolution) ∧
  GivenAs kw "diagnostic_resolution" (.count a.diagResolution) (.count standard.diagResolution) ∧
  GivenAs kw "nominal_capacity" (.num a.nominal) (.num standard.nominal) ∧
  GivenAs kw "full_fast_charge" (.num a.fullFast) (.num standard.fullFast) ∧
  GivenAs kw "charge_axis" (.str a.chargeAxis) (.str standard.chargeAxis) ∧
  GivenAs kw "discharge_axis" (.str a.dischargeAxis) (.str standard.dischargeAxis) ∧
  a.exclude = []

end Beep.Spec.Shared
