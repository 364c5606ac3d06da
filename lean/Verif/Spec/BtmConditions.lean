import Verif.Spec.Units
import Verif.Model.BiologicToMaccor
/-
Specification vocabulary for the conditions of Biologic sequences and Maccor steps: what a limit,
an end entry, a record rule and a report entry say, in volts, amperes, watts, ohms and seconds.
-/
namespace Beep.Spec.BtmConditions
open Beep Beep.BtM Beep.Spec.Units

/-- what is measured -/
inductive Quantity where
  | voltage | current | time | power | resistance
  deriving DecidableEq, Repr

/-- which side of the threshold triggers -/
inductive Side where
  | below | above
  deriving DecidableEq, Repr

/-- a quantity reaches a threshold -/
structure Condition where
  quantity : Quantity
  side : Side
  threshold : Rat
  deriving DecidableEq, Repr

/-- the size of a unit of a quantity; micro is written with either of two letters -/
def unitSize : Quantity → String → Option Rat
  | .voltage, "V" => some 1
  | .voltage, "mV" => some (1 / 1000)
  | .current, "A" => some 1
  | .current, "mA" => some (1 / 1000)
  | .current, "µA" => some (1 / 1000000)
  | .current, "μA" => some (1 / 1000000)
  | .current, "nA" => some (1 / 1000000000)
  | .current, "pA" => some (1 / 1000000000000)
  | .power, "W" => some 1
  | .power, "mW" => some (1 / 1000)
  | .power, "µW" => some (1 / 1000000)
  | .power, "μW" => some (1 / 1000000)
  | .resistance, "MOhm" => some 1000000
  | .resistance, "kOhm" => some 1000
  | .resistance, "Ohm" => some 1
  | .resistance, "mOhm" => some (1 / 1000)
  | .resistance, "µOhm" => some (1 / 1000000)
  | .resistance, "μOhm" => some (1 / 1000000)
  | .time, "h" => some 3600
  | .time, "mn" => some 60
  | .time, "s" => some 1
  | .time, "ms" => some (1 / 1000)
  | _, _ => none

/-- quantity of a Biologic limit or record rule -/
def biologicQuantity : String → Option Quantity
  | "Ece" => some .voltage
  | "Ecell" => some .voltage
  | "I" => some .current
  | "Time" => some .time
  | "Power" => some .power
  | _ => none

/-- direction of a Biologic limit -/
def biologicSide : String → Option Side
  | "<" => some .below
  | ">" => some .above
  | _ => none

/-- quantity of a Maccor end or report entry -/
def maccorQuantity : String → Option Quantity
  | "Voltage " => some .voltage
  | "Current " => some .current
  | "StepTime" => some .time
  | "Power " => some .power
  | "Resistance " => some .resistance
  | _ => none

/-- direction of a Maccor end entry; a step time is reached from below, so it is compared by
equality -/
def maccorSide : Quantity → String → Option Side
  | _, "<= " => some .below
  | _, ">= " => some .above
  | .time, " = " => some .above
  | _, _ => none

/-- number written in a Maccor entry; times are written as times and nothing else is -/
def maccorValue : Quantity → MVal → Option Rat
  | .time, .time t => some (seconds t)
  | .voltage, .num x => some x
  | .current, .num x => some x
  | .power, .num x => some x
  | _, _ => none

/-- what a limit says; power limits do not exist -/
def limitSays (l : BLim) : Option Condition := do
  let k ← biologicQuantity l.type
  let d ← biologicSide l.comp
  let u ← unitSize k l.unit
  if k = .power then none else some ⟨k, d, l.value * u⟩

/-- what an end entry says -/
def endSays (e : MEnd) : Option Condition := do
  let k ← maccorQuantity e.endType
  let d ← maccorSide k e.oper
  let v ← maccorValue k e.value
  some ⟨k, d, v⟩

/-- what a record rule says: record whenever the quantity moved by this much -/
def recordSays (r : BRec) : Option (Quantity × Rat) := do
  let k ← biologicQuantity r.type
  let u ← unitSize k r.unit
  some (k, r.value * u)

/-- what a report entry says -/
def reportSays (r : String × MVal) : Option (Quantity × Rat) := do
  let k ← maccorQuantity r.1
  let v ← maccorValue k r.2
  some (k, v)

/-- `y` is `x`; a time may be moved to the next hundredth of a second, if that is less than a tenth
of a millisecond away -/
def Near (k : Quantity) (unit : String) (x y : Rat) : Prop :=
  y = x ∨ k = .time ∧ unit = "ms" ∧ Decimals y 2 ∧ -(1 / 10000) < y - x ∧ y - x < 1 / 10000

/-- limit and end entry say the same -/
def SameLimit (l : BLim) (e : MEnd) : Prop :=
  ∃ c c', limitSays l = some c ∧ endSays e = some c' ∧ c'.quantity = c.quantity ∧ c'.side = c.side ∧
    Near c.quantity l.unit c.threshold c'.threshold

/-- record rule and report entry say the same -/
def SameRecord (r : BRec) (p : String × MVal) : Prop :=
  ∃ k x y, recordSays r = some (k, x) ∧ reportSays p = some (k, y) ∧ Near k r.unit x y

/-- what a control type holds constant -/
def controlQuantity : String → Option Quantity
  | "CC" => some .current
  | "CV" => some .voltage
  | "CR" => some .resistance
  | "CP" => some .power
  | _ => none

/-- sequence and step hold the same quantity at the same value, or both rest -/
def SameControl (q : BSeq) (s : MStep) : Prop :=
  (q.ctrlType = "Rest" ∧ s.stepType = "  Rest  " ∧ s.stepMode = "        " ∧ s.value = none) ∨
  ∃ k u, controlQuantity q.ctrlType = some k ∧ maccorQuantity s.stepMode = some k ∧ unitSize k q.unit = some u ∧
    s.value = some (q.value * u) ∧ (q.ctrlType = "CV" → q.vs = "Ref")

end Beep.Spec.BtmConditions
