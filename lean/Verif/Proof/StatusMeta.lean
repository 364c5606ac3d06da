import Verif.Proof.Base
import Verif.Spec.StatusMeta
/-
Lemmas about two-digit numbers, texts in order and the last entry of a dictionary.
-/
namespace Beep.Proof.StatusMeta
open Beep StatusMeta Spec.StatusMeta
open Beep.MaccorProcedure (digit two)

theorem digit_isDigit : ∀ n < 10, IsDigit (digit n) n := by
  unfold IsDigit; decide

theorem digit_lt : ∀ n < 10, ∀ m < 10, (digit n < digit m ↔ n < m) := by decide

theorem digit_eq : ∀ n < 10, ∀ m < 10, (digit n = digit m ↔ n = m) := by decide

/-- two texts of which the first two characters are two-digit numbers -/
theorem two_lt {n m : Nat} (hn : n < 100) (hm : m < 100) (s t : Str) :
    two n ++ s < two m ++ t ↔ n < m ∨ n = m ∧ s < t := by
  have a := digit_lt (n / 10) (by omega) (m / 10) (by omega)
  have b := digit_eq (n / 10) (by omega) (m / 10) (by omega)
  have c := digit_lt (n % 10) (by omega) (m % 10) (by omega)
  have d := digit_eq (n % 10) (by omega) (m % 10) (by omega)
  simp only [two, List.cons_append, List.nil_append, List.cons_lt_cons_iff, a, b, c, d]
  constructor
  · rintro (h | ⟨h1, h | ⟨h2, h3⟩⟩)
    · exact .inl (by omega)
    · exact .inl (by omega)
    · exact .inr ⟨by omega, h3⟩
  · rintro (h | ⟨h, hs⟩)
    · by_cases e : n / 10 = m / 10
      · exact .inr ⟨e, .inl (by omega)⟩
      · exact .inl (by omega)
    · subst h; exact .inr ⟨rfl, .inr ⟨rfl, hs⟩⟩

theorem two_eq {n m : Nat} (hn : n < 100) (hm : m < 100) : two n = two m ↔ n = m := by
  have b := digit_eq (n / 10) (by omega) (m / 10) (by omega)
  have d := digit_eq (n % 10) (by omega) (m % 10) (by omega)
  simp only [two, List.cons.injEq, and_true, b, d]
  omega

theorem set_new {ν : Type} (d : Dict Str ν) (k : Str) (v : ν) (h : k ∉ Dict.keys d) : Dict.set d k v = d ++ [(k, v)] := by
  induction d with
  | nil => rfl
  | cons x d ih =>
    simp only [Dict.keys, List.map_cons, List.mem_cons, not_or] at h
    have : x.1 ≠ k := fun e => h.1 e.symm
    obtain ⟨a, b⟩ := x
    rw [Dict.set, if_neg this, ih h.2]; rfl

end Beep.Proof.StatusMeta
