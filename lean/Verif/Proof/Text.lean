import Verif.Proof.Base
import Verif.Model.Text
/-
Lemmas about the text functions.
-/
namespace Beep.Text
open Beep

theorem lstrip_ws (a m : Str) (ha : ∀ c ∈ a, isWs c = true) : lstrip (a ++ m) = lstrip m := by
  induction a with
  | nil => rfl
  | cons c a ih =>
    unfold lstrip at *
    rw [List.cons_append, List.dropWhile_cons, if_pos (ha c (List.mem_cons_self ..))]
    exact ih (fun x hx => ha x (List.mem_cons_of_mem _ hx))

theorem lstrip_id (m : Str) (h : ∀ c, m.head? = some c → isWs c = false) : lstrip m = m := by
  cases m with
  | nil => rfl
  | cons c m =>
    unfold lstrip
    rw [List.dropWhile_cons, if_neg (by rw [h c rfl]; decide)]

theorem rstrip_eq (s : Str) : rstrip s = (lstrip s.reverse).reverse := rfl

theorem rstrip_ws (m b : Str) (hb : ∀ c ∈ b, isWs c = true) : rstrip (m ++ b) = rstrip m := by
  rw [rstrip_eq, rstrip_eq, List.reverse_append, lstrip_ws]
  intro c hc; exact hb c (List.mem_reverse.mp hc)

theorem rstrip_id (m : Str) (h : ∀ c, m.getLast? = some c → isWs c = false) : rstrip m = m := by
  rw [rstrip_eq, lstrip_id, List.reverse_reverse]
  intro c hc; rw [List.head?_reverse] at hc; exact h c hc

/-- stripping removes blanks around a text without blanks at its ends -/
theorem strip_mid (a m b : Str) (ha : ∀ c ∈ a, isWs c = true) (hb : ∀ c ∈ b, isWs c = true)
    (h1 : ∀ c, m.head? = some c → isWs c = false) (h2 : ∀ c, m.getLast? = some c → isWs c = false) :
    strip (a ++ m ++ b) = m := by
  unfold strip
  by_cases hm : m = []
  · subst hm
    rw [List.append_nil, lstrip_ws a b ha]
    have := lstrip_ws b [] hb
    rw [List.append_nil] at this
    rw [this]; rfl
  · rw [List.append_assoc, lstrip_ws a _ ha, lstrip_id, rstrip_ws m b hb, rstrip_id m h2]
    intro c hc
    rw [List.head?_append_of_ne_nil _ hm] at hc
    exact h1 c hc

theorem strip_id (m : Str) (h1 : ∀ c, m.head? = some c → isWs c = false)
    (h2 : ∀ c, m.getLast? = some c → isWs c = false) : strip m = m := by
  have := strip_mid [] m [] (by simp) (by simp) h1 h2
  simpa using this

theorem splitC_ne_nil (c : Char) (s : Str) : splitC c s ≠ [] := by
  cases s with
  | nil => simp [splitC]
  | cons x xs => rw [splitC]; split <;> [simp; (split <;> simp)]

theorem splitC_append (c : Char) (a s : Str) (h : c ∉ a) : splitC c (a ++ c :: s) = a :: splitC c s := by
  induction a with
  | nil => rw [List.nil_append, splitC, if_pos rfl]
  | cons x a ih =>
    rw [List.mem_cons, not_or] at h
    rw [List.cons_append, splitC, if_neg (fun e => h.1 e.symm), ih h.2]

theorem splitC_none (c : Char) (a : Str) (h : c ∉ a) : splitC c a = [a] := by
  induction a with
  | nil => rfl
  | cons x a ih =>
    rw [List.mem_cons, not_or] at h
    rw [splitC, if_neg (fun e => h.1 e.symm), ih h.2]

theorem splitC_join (c : Char) (l : List Str) (hl : l ≠ []) (h : ∀ s ∈ l, c ∉ s) : splitC c (join [c] l) = l := by
  induction l with
  | nil => exact absurd rfl hl
  | cons a l ih =>
    cases l with
    | nil => exact splitC_none c a (h a (List.mem_cons_self ..))
    | cons b l =>
      rw [join, List.append_assoc, List.singleton_append, splitC_append c a _ (h a (List.mem_cons_self ..)),
        ih (by simp) (fun s hs => h s (List.mem_cons_of_mem _ hs))]

theorem mem_join (sep : Str) (l : List Str) (c : Char) (h : c ∈ join sep l) : c ∈ sep ∨ ∃ s ∈ l, c ∈ s := by
  induction l with
  | nil => cases h
  | cons a l ih =>
    cases l with
    | nil => exact Or.inr ⟨a, List.mem_cons_self .., h⟩
    | cons b l =>
      rw [join, List.mem_append, List.mem_append] at h
      rcases h with (h | h) | h
      · exact Or.inr ⟨a, List.mem_cons_self .., h⟩
      · exact Or.inl h
      · rcases ih h with h | ⟨s, hs, h⟩
        · exact Or.inl h
        · exact Or.inr ⟨s, List.mem_cons_of_mem _ hs, h⟩

theorem replace_join (a b : Char) (l : List Str) (h : ∀ s ∈ l, a ∉ s) :
    replace a b (join [a] l) = join [b] l := by
  have hid : ∀ s : Str, a ∉ s → s.map (fun c => if c = a then b else c) = s := by
    intro s hs
    induction s with
    | nil => rfl
    | cons x s ih =>
      rw [List.mem_cons, not_or] at hs
      rw [List.map_cons, if_neg (fun e => hs.1 e.symm), ih hs.2]
  induction l with
  | nil => rfl
  | cons x l ih =>
    cases l with
    | nil => exact hid x (h x (List.mem_cons_self ..))
    | cons y l =>
      have ih' := ih (fun s hs => h s (List.mem_cons_of_mem _ hs))
      unfold replace at *
      rw [join, join, List.map_append, List.map_append, ih', hid x (h x (List.mem_cons_self ..))]
      simp

theorem split1_append (c : Char) (a s : Str) (h : c ∉ a) : split1 c (a ++ c :: s) = (a, some s) := by
  induction a with
  | nil => rw [List.nil_append, split1, if_pos rfl]
  | cons x a ih =>
    rw [List.mem_cons, not_or] at h
    rw [List.cons_append, split1, if_neg (fun e => h.1 e.symm), ih h.2]

theorem join_ne_nil (sep : Str) (l : List Str) (hl : l ≠ []) (h : ∀ s ∈ l, s ≠ []) : join sep l ≠ [] := by
  match l with
  | [] => exact absurd rfl hl
  | [a] => exact h a (List.mem_cons_self ..)
  | a :: b :: l =>
    rw [join]
    simp [h a (List.mem_cons_self ..)]

end Beep.Text
