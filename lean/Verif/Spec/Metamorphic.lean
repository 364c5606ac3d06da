import Verif.Model.SummaryFull
/-
Specification vocabulary for C164: the same run, recorded with other clocks, another first cycle number and other units.
-/
namespace Beep.Spec.Metamorphic
open Beep Beep.SummaryFull

/-- how another record of the same run differs: what is added to the test time, to the time stamps and to the cycle numbers,
and the size of the units of capacity and energy -/
structure Change where
  time : Rat
  stamp : Rat
  number : Int
  capacity : Rat
  energy : Rat

/-- the same record of the run -/
def Change.raw (g : Change) (r : Raw) : Raw :=
  { r with
    cycle := r.cycle + g.number
    time := r.time + g.time
    stamp := r.stamp + g.stamp
    cap := g.capacity * r.cap
    dchgCap := r.dchgCap.map (g.capacity * ·)
    chgEn := r.chgEn.map (g.energy * ·)
    dchgEn := r.dchgEn.map (g.energy * ·) }

/-- the same parameters, in the new units -/
def Change.params (g : Change) (p : Summary.Params) : Summary.Params :=
  { p with
    nominal := g.capacity * p.nominal
    errorThreshold := g.energy * p.errorThreshold }

/-- the row of the summary: the numbers of the cycle, capacities and energies in the new units; the efficiency and the duration
of the charge do not change -/
def Change.row (g : Change) (r : Summary.Row) : Summary.Row :=
  { r with
    label := r.label + g.number
    cycle := r.cycle + g.number
    dchgCap := r.dchgCap.map (g.capacity * ·)
    chgCap := r.chgCap.map (g.capacity * ·)
    dchgEn := r.dchgEn.map (g.energy * ·)
    chgEn := r.chgEn.map (g.energy * ·)
    chgThroughput := r.chgThroughput.map (g.capacity * ·)
    enThroughput := r.enThroughput.map (g.energy * ·) }

/-- the value of a column by its name: internal resistance, temperatures, integrated temperature, pause, coulombic efficiency,
time and current of the constant voltage part do not change -/
def Change.value (g : Change) (name : String) (x : Rat) : Rat :=
  if name = "cycle_index" then x + g.number
  else if name = "discharge_capacity" ∨ name = "charge_capacity" ∨ name = "CV_capacity" then g.capacity * x
  else if name = "discharge_energy" ∨ name = "charge_energy" then g.energy * x
  else if name = "date_time_iso" then x + g.stamp
  else x

/-- all columns of a row -/
def Change.cols (g : Change) (cols : Dict String (Option Rat)) : Dict String (Option Rat) :=
  cols.map fun c => (c.1, c.2.map (g.value c.1))

/-- a row of the summary without the duration of the charge -/
def noDuration (r : Summary.Row) : Summary.Row := { r with duration := none }

/-- a diagnostic configuration for the new numbers -/
def Change.config (g : Change) (cfg : Diagnostic.Config) : Diagnostic.Config :=
  { cfg with
    cycles := cfg.cycles.map fun p => (p.1, p.2.map (· + g.number))
    hppcIx := cfg.hppcIx.map (· + g.number)
    rptIx := cfg.rptIx.map (· + g.number)
    resetIx := cfg.resetIx.map (· + g.number)
    allIx := cfg.allIx.map (· + g.number)
    typeByIx := cfg.typeByIx.map fun p => (p.1 + g.number, p.2) }

/-- a row of the diagnostic summary -/
def Change.diagRow (g : Change) (r : DiagRow) : DiagRow := ⟨r.cycle + g.number, r.cycleType, g.cols r.cols⟩

end Beep.Spec.Metamorphic
