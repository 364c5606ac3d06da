import Verif.Proof.Base
import Verif.Spec.Routing
/-
Lemmas about the regular expression matcher.
-/
namespace Beep.Proof.Routing
open Beep Routing Spec.Routing

theorem stripLit_iff (s t z : Str) : stripLit s t = some z ↔ t = s ++ z := by
  induction s generalizing t with
  | nil => simp [stripLit]
  | cons c s ih =>
    cases t with
    | nil => simp [stripLit]
    | cons d t =>
      simp only [stripLit]
      split
      · rename_i h; subst h; simp [ih]
      · rename_i h
        constructor
        · intro h'; cases h'
        · intro h'; injection h' with h1 h2; exact absurd h1.symm h

theorem mem_lit (s t z : Str) : z ∈ rests (.lit s) t ↔ t = s ++ z := by
  simp [rests, stripLit_iff]

theorem mem_many (p : Char → Bool) (t z : Str) :
    z ∈ manyRests p t ↔ ∃ a, t = a ++ z ∧ ∀ c ∈ a, p c = true := by
  induction t generalizing z with
  | nil =>
    simp only [manyRests, List.mem_singleton]
    constructor
    · rintro rfl; exact ⟨[], rfl, by simp⟩
    · rintro ⟨a, h, _⟩; simpa using (List.append_eq_nil_iff.mp h.symm).2
  | cons c t ih =>
    simp only [manyRests]
    by_cases hp : p c = true
    · rw [if_pos hp, List.mem_cons, ih]
      constructor
      · rintro (rfl | ⟨a, rfl, h⟩)
        · exact ⟨[], rfl, by simp⟩
        · exact ⟨c :: a, rfl, by simpa [hp] using h⟩
      · rintro ⟨a, h, ha⟩
        cases a with
        | nil => left; exact h.symm
        | cons d a =>
          injection h with h1 h2
          exact Or.inr ⟨a, h2, fun x hx => ha x (List.mem_cons_of_mem _ hx)⟩
    · rw [if_neg hp, List.mem_singleton]
      constructor
      · rintro rfl; exact ⟨[], rfl, by simp⟩
      · rintro ⟨a, h, ha⟩
        cases a with
        | nil => exact h.symm
        | cons d a =>
          injection h with h1 h2
          exact absurd (h1 ▸ ha d (by simp)) hp

theorem mem_dots (t z : Str) : z ∈ rests dots t ↔ ∃ a, t = a ++ z ∧ OneLine a := by
  simp only [dots, rests, mem_many, OneLine, dot, bne_iff_ne]
  constructor
  · rintro ⟨a, h, ha⟩; exact ⟨a, h, fun hn => ha _ hn rfl⟩
  · rintro ⟨a, h, ha⟩; exact ⟨a, h, fun c hc he => ha (he ▸ hc)⟩

theorem mem_seq (r s : Rx) (t z : Str) : z ∈ rests (.seq r s) t ↔ ∃ m ∈ rests r t, z ∈ rests s m := by
  simp [rests]

theorem mem_alt (r s : Rx) (t z : Str) : z ∈ rests (.alt r s) t ↔ z ∈ rests r t ∨ z ∈ rests s t := by
  simp [rests]

theorem mem_notAhead (r : Rx) (t z : Str) :
    z ∈ rests (.notAhead r) t ↔ z = t ∧ ¬ ∃ m, m ∈ rests r t := by
  simp only [rests]
  cases h : rests r t with
  | nil => simp
  | cons a l => simp only [List.isEmpty_cons, Bool.false_eq_true, if_false, List.not_mem_nil, false_iff]
                rintro ⟨_, h2⟩; exact h2 ⟨a, by simp⟩

theorem mem_times (p : Char → Bool) (n : Nat) (t z : Str) :
    z ∈ rests (times p n) t ↔ ∃ d, t = d ++ z ∧ Digits p n d := by
  induction n generalizing t with
  | zero =>
    simp only [times, mem_lit, Digits]
    constructor
    · rintro h; exact ⟨[], by simpa using h, rfl, by simp⟩
    · rintro ⟨d, h, hl, _⟩
      have : d = [] := List.length_eq_zero_iff.mp hl
      subst this; simpa using h
  | succ n ih =>
    simp only [times, mem_seq, ih]
    constructor
    · rintro ⟨m, hm, d, rfl, hl, hd⟩
      cases t with
      | nil => simp [rests] at hm
      | cons c t =>
        simp only [rests] at hm
        split at hm
        · rename_i hc
          simp only [List.mem_singleton] at hm
          subst hm
          exact ⟨c :: d, rfl, by simp [hl], by simpa [hc] using hd⟩
        · cases hm
    · rintro ⟨d, rfl, hl, hd⟩
      cases d with
      | nil => simp at hl
      | cons c d =>
        refine ⟨d ++ z, ?_, d, rfl, by simpa using hl, fun x hx => hd x (by simp [hx])⟩
        simp [rests, hd c (by simp)]

theorem reMatch_iff (r : Rx) (t : Str) : reMatch r t = true ↔ ∃ z, z ∈ rests r t := by
  unfold reMatch
  cases rests r t with
  | nil => simp
  | cons a l => simp only [List.isEmpty_cons, Bool.not_false, true_iff]; exact ⟨a, by simp⟩

theorem has_iff (s t : Str) : reMatch (.seq dots (.lit s)) t = true ↔ Has s t := by
  simp only [reMatch_iff, mem_seq, mem_dots, mem_lit, Has]
  constructor
  · rintro ⟨z, m, ⟨a, rfl, ha⟩, rfl⟩; exact ⟨a, z, by simp, ha⟩
  · rintro ⟨a, z, rfl, ha⟩; exact ⟨z, s ++ z, ⟨a, by simp, ha⟩, rfl⟩

theorem containing_iff (s e t : Str) : reMatch (containing s e) t = true ↔ Contains s e t := by
  simp only [containing, reMatch_iff, mem_seq, mem_dots, mem_lit, Contains]
  constructor
  · rintro ⟨z, m, ⟨a, rfl, ha⟩, k, rfl, j, ⟨b, rfl, hb⟩, rfl⟩
    exact ⟨a, b, z, by simp, ha, hb⟩
  · rintro ⟨a, b, z, rfl, ha, hb⟩
    exact ⟨z, s ++ (b ++ (e ++ z)), ⟨a, by simp, ha⟩, b ++ (e ++ z), rfl, e ++ z, ⟨b, rfl, hb⟩, rfl⟩

/-- a run of six digits is a run of five after one more character, so the pattern needs only five -/
theorem maccor_iff (digit : Char → Bool) (hd : digit '\n' = false) (t : Str) :
    reMatch (maccor digit) t = true ↔ Numbered digit t := by
  simp only [maccor, reMatch_iff, mem_seq, mem_dots, mem_alt, mem_times, Numbered]
  constructor
  · rintro ⟨z, m, ⟨a, rfl, ha⟩, k, (⟨d, rfl, hl, hdd⟩ | ⟨d, rfl, h5⟩), j, ⟨b, rfl, hb⟩, e, rfl, he⟩
    · cases d with
      | nil => simp at hl
      | cons c d =>
        refine ⟨a ++ [c], d, b, e, z, by simp, ?_, hb, ⟨by simpa using hl, fun x hx => hdd x (by simp [hx])⟩, he⟩
        intro hn
        rcases List.mem_append.mp hn with h | h
        · exact ha h
        · simp only [List.mem_singleton] at h
          have := hdd c (by simp)
          rw [← h, hd] at this; cases this
    · exact ⟨a, d, b, e, z, by simp, ha, hb, h5, he⟩
  · rintro ⟨a, d, b, e, z, rfl, ha, hb, h5, he⟩
    exact ⟨z, d ++ (b ++ (e ++ z)), ⟨a, by simp, ha⟩, b ++ (e ++ z), Or.inr ⟨d, rfl, h5⟩, e ++ z,
      ⟨b, rfl, hb⟩, e, rfl, he⟩

theorem biologic_iff (t : Str) : reMatch biologic t = true ↔
    (Contains "_C".toList ".txt".toList t ∨ Contains "_C".toList ".csv".toList t) ∧ ¬ Has "_CH".toList t := by
  rw [← has_iff, reMatch_iff]
  simp only [biologic, reMatch_iff, mem_seq, mem_notAhead, mem_dots, mem_alt, mem_lit, Contains]
  constructor
  · rintro ⟨z, m, ⟨rfl, hn⟩, k, ⟨a, rfl, ha⟩, j, rfl, i, ⟨b, rfl, hb⟩, q, rfl, h⟩
    refine ⟨?_, hn⟩
    rcases h with rfl | rfl
    · exact Or.inl ⟨a, b, z, by simp, ha, hb⟩
    · exact Or.inr ⟨a, b, z, by simp, ha, hb⟩
  · rintro ⟨h, hn⟩
    rcases h with ⟨a, b, z, rfl, ha, hb⟩ | ⟨a, b, z, rfl, ha, hb⟩
    · exact ⟨z, _, ⟨rfl, hn⟩, "_C".toList ++ (b ++ (".txt".toList ++ z)), ⟨a, by simp, ha⟩,
        b ++ (".txt".toList ++ z), rfl, ".txt".toList ++ z, ⟨b, rfl, hb⟩, "txt".toList ++ z, rfl, Or.inl rfl⟩
    · exact ⟨z, _, ⟨rfl, hn⟩, "_C".toList ++ (b ++ (".csv".toList ++ z)), ⟨a, by simp, ha⟩,
        b ++ (".csv".toList ++ z), rfl, ".csv".toList ++ z, ⟨b, rfl, hb⟩, "csv".toList ++ z, rfl, Or.inr rfl⟩

end Beep.Proof.Routing
