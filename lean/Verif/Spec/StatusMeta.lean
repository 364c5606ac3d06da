import Verif.Model.StatusMeta
/-
Vocabulary for the statements about the metadata of status files.
-/
namespace Beep.Spec.StatusMeta
open Beep StatusMeta

/-- a date and time of the calendar with a year of four digits -/
def Calendar (u : Utc) : Prop :=
  1000 ≤ u.year ∧ u.year ≤ 9999 ∧ 1 ≤ u.month ∧ u.month ≤ 12 ∧ 1 ≤ u.day ∧ u.day ≤ 31 ∧ u.hour ≤ 23 ∧ u.minute ≤ 59 ∧
    u.second ≤ 59 ∧ u.microsecond ≤ 999999

/-- the same second of the same day -/
def SameSecond (a b : Utc) : Prop :=
  a.year = b.year ∧ a.month = b.month ∧ a.day = b.day ∧ a.hour = b.hour ∧ a.minute = b.minute ∧ a.second = b.second

/-- in an earlier second: an earlier year, or in the same year an earlier month, and so on -/
def EarlierSecond (a b : Utc) : Prop :=
  a.year < b.year ∨ a.year = b.year ∧ (a.month < b.month ∨ a.month = b.month ∧ (a.day < b.day ∨ a.day = b.day ∧
    (a.hour < b.hour ∨ a.hour = b.hour ∧ (a.minute < b.minute ∨ a.minute = b.minute ∧ a.second < b.second))))

/-- `c` is the character of the decimal digit `n` -/
def IsDigit (c : Char) (n : Nat) : Prop := (n, c) ∈ List.zip (List.range 10) "0123456789".toList

/-- the text reads `YYYY-MM-DD hh:mm:ss` with the numbers given, padded with zeros -/
def Reads (t : Str) (year month day hour minute second : Nat) : Prop :=
  ∃ y₁ y₂ y₃ y₄ m₁ m₂ d₁ d₂ h₁ h₂ n₁ n₂ s₁ s₂ : Nat, ∃ Y₁ Y₂ Y₃ Y₄ M₁ M₂ D₁ D₂ H₁ H₂ N₁ N₂ S₁ S₂ : Char,
    t = [Y₁, Y₂, Y₃, Y₄, '-', M₁, M₂, '-', D₁, D₂, ' ', H₁, H₂, ':', N₁, N₂, ':', S₁, S₂] ∧
    (IsDigit Y₁ y₁ ∧ IsDigit Y₂ y₂ ∧ IsDigit Y₃ y₃ ∧ IsDigit Y₄ y₄ ∧ year = 1000 * y₁ + 100 * y₂ + 10 * y₃ + y₄) ∧
    (IsDigit M₁ m₁ ∧ IsDigit M₂ m₂ ∧ month = 10 * m₁ + m₂) ∧
    (IsDigit D₁ d₁ ∧ IsDigit D₂ d₂ ∧ day = 10 * d₁ + d₂) ∧
    (IsDigit H₁ h₁ ∧ IsDigit H₂ h₂ ∧ hour = 10 * h₁ + h₂) ∧
    (IsDigit N₁ n₁ ∧ IsDigit N₂ n₂ ∧ minute = 10 * n₁ + n₂) ∧
    (IsDigit S₁ s₁ ∧ IsDigit S₂ s₂ ∧ second = 10 * s₁ + s₂)

end Beep.Spec.StatusMeta
