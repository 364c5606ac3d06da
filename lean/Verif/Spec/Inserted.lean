import Verif.Spec.MaccorProcedure
/-
Vocabulary for C69: the currents, voltages and repeat counts of a generated Maccor procedure.
-/
namespace Beep.Spec.Inserted
open Beep MaccorProcedure Spec.MaccorProcedure

/-- the value is the number `x`, rounded to `1/k` -/
def Near (k : Nat) (v : Val) (x : Rat) : Prop :=
  ∃ (q : Rat) (n : Int), v = .num q ∧ q * k = n ∧ -(1 / 2) ≤ x * k - n ∧ x * k - n ≤ 1 / 2

/-- step `i` is of type `ty` with control `mode` and commands `x`, to `1/k` -/
def Commands (p : List Step) (i : Nat) (ty mode : String) (k : Nat) (x : Rat) : Prop :=
  ∃ s, p[i]? = some s ∧ s.stepType = ty.toList ∧ s.stepMode = some mode.toList ∧ Near k s.stepValue x

/-- step `i` is held within the limit `x` of the quantity `key` -/
def Limited (p : List Step) (i : Nat) (key : String) (k : Nat) (x : Rat) : Prop :=
  ∃ s l v, p[i]? = some s ∧ s.limits = some l ∧ Dict.get? l key.toList = some v ∧ Near k v x

/-- end entry `j` of step `i` has the threshold `x` -/
def Threshold (p : List Step) (i j : Nat) (k : Nat) (x : Rat) : Prop :=
  ∃ s e, p[i]? = some s ∧ (entries s.ends)[j]? = some e ∧ Near k e.value x

/-- end entry `j` of step `i` is a condition on `ty` with the threshold `x` -/
def EndsOn (p : List Step) (i j : Nat) (ty : String) (k : Nat) (x : Rat) : Prop :=
  ∃ s e, p[i]? = some s ∧ (entries s.ends)[j]? = some e ∧ e.endType = ty.toList ∧ Near k e.value x

/-- step `i` is a rest ending on its step time -/
def Rests (p : List Step) (i : Nat) : Prop :=
  ∃ s e, p[i]? = some s ∧ s.stepType = "Rest".toList ∧ (entries s.ends)[0]? = some e ∧ e.endType = "StepTime".toList

/-- the first end entry of step `i` is on its step time -/
def Timed (p : List Step) (i : Nat) : Prop :=
  ∃ s e, p[i]? = some s ∧ (entries s.ends)[0]? = some e ∧ e.endType = "StepTime".toList

/-- the initial resistance check: 1C -/
def Resistance (r : RegParam) (p : List Step) (i : Nat) : Prop :=
  Commands p i "Charge" "Current" 1000 r.capacityNominal

/-- the charge of a regular cycle: constant current for a time, constant current to the cutoff voltage,
hold, rest -/
def Charge (r : RegParam) (p : List Step) (i : Nat) : Prop :=
  Commands p i "Charge" "Current" 1000 (r.chargeCC1 * r.capacityNominal) ∧ Timed p i ∧
  Commands p (i + 1) "Charge" "Current" 1000 (r.chargeCC2 * r.capacityNominal) ∧
  EndsOn p (i + 1) 0 "Voltage" 1000 r.chargeCutoffVoltage ∧
  (∃ s, p[i + 2]? = some s ∧ s.stepType = "Charge".toList ∧ s.stepMode = some "Voltage".toList ∧
    s.stepValue = .num r.chargeCutoffVoltage) ∧ Timed p (i + 2) ∧
  Rests p (i + 3)

/-- in version 3 the first charging stage also ends at the cutoff voltage -/
def ChargeV3 (r : RegParam) (p : List Step) (i : Nat) : Prop :=
  Charge r p i ∧ Threshold p i 1 1000 r.chargeCutoffVoltage

/-- the discharge of a regular cycle, and the number of cycles until the first (loop 1) or the next
(loop 2) diagnostic -/
def Discharge (r : RegParam) (p : List Step) (i : Nat) : Prop :=
  Commands p i "Dischrge" "Current" 1000 (r.dischargeCC * r.capacityNominal) ∧
  EndsOn p i 0 "Voltage" 1000 r.dischargeCutoffVoltage ∧
  Rests p (i + 1) ∧
  ∃ s, p[i + 3]? = some s ∧ s.stepType.take 4 = "Loop".toList ∧
    (s.stepType = "Loop 1".toList → ∃ e, s.ends = some (.one e) ∧ e.endType = "Loop Cnt".toList ∧ e.value = .num r.diagnosticStartCycle) ∧
    (s.stepType = "Loop 2".toList → ∃ e, s.ends = some (.one e) ∧ e.endType = "Loop Cnt".toList ∧ e.value = .num r.diagnosticInterval)

/-- the storage charge: C/2 down to the cutoff voltage until C/20, then C/2 for a time -/
def Storage (r : RegParam) (p : List Step) (i : Nat) : Prop :=
  Commands p i "Dischrge" "Current" 1000 (r.capacityNominal / 2) ∧
  Limited p i "Voltage" 1000 r.dischargeCutoffVoltage ∧
  EndsOn p i 0 "Current" 1000 (r.capacityNominal / 20) ∧
  Commands p (i + 1) "Charge" "Current" 1000 (r.capacityNominal / 2) ∧ Timed p (i + 1)

/-- the reset cycle -/
def Reset (cap : Rat) (d : DiagParam) (p : List Step) (i : Nat) : Prop :=
  Commands p i "Charge" "Current" 10000 (cap * d.resetCurrent) ∧
  Limited p i "Voltage" 1000 d.chargeCutoffVoltage ∧
  EndsOn p i 0 "Current" 10000 (cap * d.resetCutoffCurrent) ∧
  Commands p (i + 1) "Dischrge" "Current" 10000 (cap * d.resetCurrent) ∧
  EndsOn p (i + 1) 0 "Voltage" 1000 d.dischargeCutoffVoltage

/-- the pulse power cycle -/
def Hppc (cap : Rat) (d : DiagParam) (p : List Step) (i : Nat) : Prop :=
  (Commands p i "Charge" "Current" 1000 (cap * d.hppcBaseline) ∧
    Limited p i "Voltage" 1000 d.chargeCutoffVoltage ∧
    EndsOn p i 0 "Current" 1000 (cap * d.cutoffCurrent)) ∧
  Rests p (i + 2) ∧
  (Commands p (i + 3) "Dischrge" "Current" 1000 (cap * d.hppcPulse1) ∧ Timed p (i + 3) ∧
    EndsOn p (i + 3) 1 "Voltage" 1000 d.dischargeCutoffVoltage) ∧
  Rests p (i + 4) ∧
  (Commands p (i + 5) "Charge" "Current" 1000 (cap * d.hppcPulse2) ∧ Timed p (i + 5) ∧
    EndsOn p (i + 5) 1 "Voltage" 1000 d.hppcPulseCutoff) ∧
  (Commands p (i + 6) "Dischrge" "Current" 1000 (cap * d.hppcBaseline) ∧ Timed p (i + 6) ∧
    EndsOn p (i + 6) 1 "Voltage" 1000 d.dischargeCutoffVoltage) ∧
  (Commands p (i + 8) "Dischrge" "Voltage" 1000 d.dischargeCutoffVoltage ∧
    Limited p (i + 8) "Current" 1000 (cap * d.hppcBaseline) ∧
    EndsOn p (i + 8) 0 "Current" 1000 (cap * d.cutoffCurrent))

/-- charge and discharge at `rate` -/
def RatePair (rate cap : Rat) (d : DiagParam) (p : List Step) (i : Nat) : Prop :=
  Commands p i "Charge" "Current" 1000 (cap * d.rptCharge) ∧
  Limited p i "Voltage" 1000 d.chargeCutoffVoltage ∧
  EndsOn p i 0 "Current" 1000 (cap * d.cutoffCurrent) ∧
  Commands p (i + 1) "Dischrge" "Current" 1000 (cap * rate) ∧
  EndsOn p (i + 1) 0 "Voltage" 1000 d.dischargeCutoffVoltage

/-- the rate performance test -/
def Rpt (cap : Rat) (d : DiagParam) (p : List Step) (i : Nat) : Prop :=
  RatePair d.rptDischarge1 cap d p i ∧ RatePair d.rptDischarge2 cap d p (i + 3) ∧
  RatePair d.rptDischarge3 cap d p (i + 6)

/-- one diagnostic: reset, pulses, rates -/
def Diagnostic (cap : Rat) (d : DiagParam) (p : List Step) (reset hppc rpt : Nat) : Prop :=
  Reset cap d p reset ∧ Hppc cap d p hppc ∧ Rpt cap d p rpt

end Beep.Spec.Inserted
