import Verif.Spec.Casts
/-
Independent vocabulary for the records of Indigo files.
-/
namespace Beep.Spec.IndigoTable

/-- what Indigo calls the published columns -/
def indigo : List (String × String) :=
  [("half_cycle_count", "step_index"), ("cycle_count", "cycle_index"), ("cell_current_a", "current"),
   ("cell_voltage_v", "voltage"), ("cell_temperature_c", "temperature")] ++
  ["test_time", "date_time_iso", "charge_capacity", "discharge_capacity", "charge_energy", "discharge_energy",
   "internal_resistance"].map (fun n => (n, n))

/-- a whole number of microseconds within 2^33 seconds of 1970 (until 2242) -/
def Microseconds (x : Rat) : Prop := ∃ n : Int, x = n ∧ |n| < 2 ^ 33 * 10 ^ 6

end Beep.Spec.IndigoTable
