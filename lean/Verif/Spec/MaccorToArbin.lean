import Verif.Model.MaccorToArbin
/-
Specification vocabulary for the conversion of Maccor steps to Arbin steps.
-/
namespace Beep.Spec.MtA
open Beep Beep.MtA

/-- meaning of a comparison sign -/
def sat (sign : String) (x r : Rat) : Prop :=
  if sign = "<=" then x ≤ r
  else if sign = ">=" then r ≤ x
  else if sign = "<" then x < r
  else if sign = ">" then r < x
  else if sign = "=" then x = r
  else False

/-- the current an Arbin measures when the Maccor shows the magnitude `x` -/
def signed (t : SType) (x : Rat) : Rat := match t with
  | .dischrge => -x
  | _ => x

/-- the number denoted by the digits behind the point -/
def fraction : List (Fin 10) → Rat
  | [] => 0
  | d :: ds => (((d : Nat) : Rat) + fraction ds) / 10

/-- the seconds denoted by a time text -/
def seconds (t : TimeText) : Rat :=
  if t.short then t.seconds + fraction t.frac
  else 3600 * t.hours + 60 * t.minutes + t.seconds + fraction t.frac

/-- what a cycler is told to do with the cell: a constant current, a constant rate, a constant
voltage, or a constant current (in amperes or as a rate) up to a voltage that is then held.
Currents out of the cell are negative. -/
inductive Drive where
  | current (a : Rat)
  | rate (c : Rat)
  | voltage (v : Rat)
  | cccv (isRate : Bool) (a v : Rat)
  deriving DecidableEq, Repr

/-- the sign of a current of a step of this type -/
def direct (t : SType) (x : Rat) : Rat := if t = .dischrge then -x else x

/-- what a Maccor charge or discharge step tells the cycler -/
def driveOf (s : Step) : Option Drive :=
  match s.mode, s.limits with
  | .current, none => some (if s.value.crate then .rate (direct s.type s.value.value)
      else .current (direct s.type s.value.value))
  | .current, some l => some (.cccv s.value.crate (direct s.type s.value.value) l.voltage.value)
  | .voltage, none => some (.voltage s.value.value)
  | .voltage, some l => some (.cccv l.current.crate (direct s.type l.current.value) s.value.value)
  | _, _ => none

/-- what an Arbin step tells the cycler; its CCCV control has a current in amperes, a voltage and a
third value that must be zero -/
def driveOfArbin (c : Ctrl) : Option Drive :=
  match c.value, c.ext1, c.ext2 with
  | some x, none, none => if c.type = "Current(A)" then some (.current x) else if c.type = "C-Rate" then some (.rate x)
      else if c.type = "Voltage(V)" then some (.voltage x) else none
  | some x, some v, some z => if c.type = "CCCV" ∧ z = 0 then some (.cccv false x v) else none
  | _, _, _ => none

/-- the number whose binary digits are the given ones -/
def mask (bits : List Nat) : Rat := (bits.map (fun b => (2 : Rat) ^ b)).sum

/-- the Arbin step sets variables: it resets, increments and decrements the variables with these bit
numbers (in Arbin's numbering bit 0 of the increments is the cycle index and bits 1 to 4 are the counters 1 to 4;
bits 0 to 3 of the resets are the capacities and energies and bit 15 + n is counter n) -/
def SetsVariables (c : Ctrl) (reset increment decrement : List Nat) : Prop :=
  c.type = "Set Variable(s)" ∧ c.value = some (mask reset) ∧ c.ext1 = some (mask increment) ∧
    c.ext2 = some (mask decrement)

/-- the name of the Arbin control that belongs to a mode -/
def controlName (s : Step) : String :=
  if s.limits.isSome then "CCCV"
  else match s.mode with
    | .voltage => "Voltage(V)"
    | _ => if s.value.crate then "C-Rate" else "Current(A)"

/-- loops of a step list, read with a stack of open loops (position and number of the `Do`):
the pairs (position of the Loop, position of its Do).  Fails when a Loop does not close the
loop opened last, or a number is opened while it is open. -/
def pairs (stack : List (Nat × Nat)) (i : Nat) : List Step → Option (List (Nat × Nat))
  | [] => if stack = [] then some [] else none
  | s :: ss =>
    match s.type with
    | .doo n => if n ∈ stack.map Prod.snd then none else pairs ((i, n) :: stack) (i + 1) ss
    | .loop n =>
      match stack with
      | [] => none
      | (d, m) :: rest => if m = n then (pairs rest (i + 1) ss).map (fun l => (i, d) :: l) else none
    | _ => pairs stack (i + 1) ss

end Beep.Spec.MtA
