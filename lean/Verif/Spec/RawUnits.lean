import Verif.Spec.Casts
import Verif.Model.RawUnits
/-
Independent vocabulary for the units of raw columns.
-/
namespace Beep.Spec.RawUnits
open Beep Casts

/-! ### Clock times -/

/-- the digits `s` are the decimal notation of `n` (leading zeros allowed) -/
def Digits (s : Str) (n : Nat) : Prop :=
  s ≠ [] ∧ (∀ c ∈ s, '0' ≤ c ∧ c ≤ '9') ∧ n = s.foldl (fun a c => 10 * a + (c.toNat - '0'.toNat)) 0

/-- the text is the decimal notation of `q` -/
def Numeral (s : Str) (q : Rat) : Prop :=
  (∃ n : Nat, Digits s n ∧ q = n) ∨
  ∃ a b, ∃ n m : Nat, s = a ++ '.' :: b ∧ Digits a n ∧ Digits b m ∧ q = (n : Rat) + (m : Rat) / 10 ^ b.length

/-- the text `h:min:s.ms` means `t` seconds -/
def Clock (s : Str) (t : Rat) : Prop :=
  ∃ h m c, ∃ H M C : Rat, s = h ++ ':' :: (m ++ ':' :: c) ∧ Numeral h H ∧ Numeral m M ∧ Numeral c C ∧ t = 3600 * H + 60 * M + C

/-! ### Neware -/

/-- the columns that Neware gives in thousandths of the unit of beep -/
def milli : List String :=
  ["Current(mA)", "Capacitance_Chg(mAh)", "Capacitance_DChg(mAh)", "Engy_Chg(mWh)", "Engy_DChg(mWh)"]

/-- a resistance that is there: neither missing nor a dash -/
def Present (c : Cell) : Prop := c ≠ .nan ∧ c ≠ .text "\t-"

/-- gaps are filled with the last value above them, or else with the first value below -/
def Filled (xs ys : List Cell) : Prop :=
  ys.length = xs.length ∧ ∀ i : Nat, ∀ y, ys[i]? = some y →
    (∃ j, j ≤ i ∧ xs[j]? = some y ∧ Present y ∧ ∀ k, j < k → k ≤ i → ∀ x, xs[k]? = some x → ¬Present x) ∨
    (∃ j, i < j ∧ xs[j]? = some y ∧ Present y ∧ ∀ k, k < j → ∀ x, xs[k]? = some x → ¬Present x) ∨
    ((∀ x ∈ xs, ¬Present x) ∧ y = .nan)

/-- the cells of a column in the units of beep: seconds, amperes, ampere hours, watt hours -/
def InUnits (n : String) (xs ys : List Cell) : Prop :=
  (n = "Time(h:min:s.ms)" → List.Forall₂ (fun x y => ∃ s, x = .text s ∧ ∃ t, y = .num t ∧ ∀ t', Clock s.toList t' → t = t') xs ys) ∧
  (n ∈ milli → List.Forall₂ (fun x y => (∀ s, x ≠ .text s) ∧ (∀ q, x = .num q → y = .num (q / 1000)) ∧ ((∀ q, x ≠ .num q) → y = x)) xs ys) ∧
  (n = "DCIR(O)" → Filled xs ys) ∧
  (n ≠ "Time(h:min:s.ms)" → n ∉ milli → n ≠ "DCIR(O)" → ys = xs)

/-! ### Novonix -/

/-- the published names of Novonix columns -/
def novonix : List (String × String) :=
  [("Date and Time", "date_time"), ("Cycle Number", "cycle_index"), ("Step Number", "step_num"), ("Step Type", "step_index"),
   ("Step position", "step_position"), ("Run Time (h)", "test_time"), ("Step Time (h)", "step_time"),
   ("Current (A)", "current"), ("Potential (V)", "voltage"), ("Capacity (Ah)", "capacity"), ("Energy (Wh)", "energy"),
   ("dIdt (V/h)", "di/dt"), ("dVdt (I/h)", "dv/dt"), ("Temperature (°C)", "temperature"),
   ("Circuit Temperature (°C)", "circuit_temperature")]

/-- the columns of hours -/
def hours : List String := ["Run Time (h)", "Step Time (h)"]

/-- the kinds of Novonix columns -/
def novonixKinds : List (List String × Casts.Kind) :=
  [(["Date and Time"], .text), (["Cycle Number", "Step Number", "Step Type", "Step position"], .signed 64),
   (["Run Time (h)", "Step Time (h)", "Current (A)", "Potential (V)", "Capacity (Ah)", "Energy (Wh)", "dIdt (V/h)", "dVdt (I/h)",
     "Temperature (°C)", "Circuit Temperature (°C)"], .asRead)]

/-- the same times in seconds -/
def Seconds (xs ys : List Cell) : Prop := List.Forall₂ (fun x y => ∀ q, x = .num q → y = .num (3600 * q)) xs ys

end Beep.Spec.RawUnits
