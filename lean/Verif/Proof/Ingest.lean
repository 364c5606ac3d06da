import Verif.Spec.Ingest
import Verif.Proof.Base
import Verif.Proof.Py
import Verif.Proof.Text
import Verif.Proof.Batch
/-
Lemmas about splitting text, digits and the calendar.
-/
namespace Beep.Proof.Ingest
open Beep Text Beep.Ingest Beep.Spec.Ingest

/-! ### split -/

theorem splitGo_skip (sep : Str) (n : Nat) (cur s : Str) : splitGo sep n cur s = splitGo sep 0 cur (s.drop n) := by
  induction s generalizing n with
  | nil => cases n <;> simp [splitGo]
  | cons x xs ih =>
    cases n with
    | zero => rfl
    | succ n => rw [splitGo, ih, List.drop_succ_cons]

theorem splitGo_none (sep : Str) (cur s : Str) (h : ¬ sep <:+: s) : splitGo sep 0 cur s = [cur.reverse ++ s] := by
  induction s generalizing cur with
  | nil => simp [splitGo]
  | cons x xs ih =>
    rw [splitGo]
    have hp : sep.isPrefixOf (x :: xs) = false := by
      rw [Bool.eq_false_iff]
      intro hp
      exact h (List.isPrefixOf_iff_prefix.1 hp).isInfix
    rw [hp, if_neg (by simp), ih _ (fun hh => h (hh.trans (List.infix_cons (List.infix_refl xs))))]
    simp

/-- `f` first occurs in `s` after `a` -/
def First (f s a b : Str) : Prop := s = a ++ f ++ b ∧ ∀ a' b', s = a' ++ f ++ b' → a.length ≤ a'.length

theorem splitGo_first (sep : Str) (hne : sep ≠ []) (cur s a b : Str) (h : First sep s a b) :
    splitGo sep 0 cur s = (cur.reverse ++ a) :: splitGo sep 0 [] b := by
  induction a generalizing cur s with
  | nil =>
    obtain ⟨rfl, _⟩ := h
    obtain ⟨c, cs, rfl⟩ := List.exists_cons_of_ne_nil hne
    simp only [List.nil_append, List.cons_append, List.append_nil]
    rw [splitGo, if_pos (by rw [List.isPrefixOf_iff_prefix]; exact ⟨b, by simp⟩), splitGo_skip]
    simp
  | cons x xs ih =>
    obtain ⟨rfl, hf⟩ := h
    simp only [List.cons_append]
    rw [splitGo]
    have hp : sep.isPrefixOf (x :: (xs ++ sep ++ b)) = false := by
      rw [Bool.eq_false_iff]
      intro hp
      obtain ⟨t, ht⟩ := List.isPrefixOf_iff_prefix.1 hp
      have := hf [] t (by simpa using ht.symm)
      simp at this
    rw [hp, if_neg (by simp), ih (x :: cur) (xs ++ sep ++ b)]
    · simp
    · refine ⟨rfl, fun a' b' e => ?_⟩
      have := hf (x :: a') b' (by simp [e])
      simpa using this

theorem first_exists (f s : Str) (h : f <:+: s) : ∃ a b, First f s a b := by
  classical
  have hex : ∃ n, ∃ a b, s = a ++ f ++ b ∧ a.length = n := by
    obtain ⟨a, b, e⟩ := h
    exact ⟨_, a, b, e.symm, rfl⟩
  obtain ⟨a, b, e, hl⟩ := Nat.find_spec hex
  refine ⟨a, b, e, fun a' b' e' => ?_⟩
  rw [hl]
  exact Nat.find_min' hex ⟨a', b', e', rfl⟩

theorem splitGo_ne_nil (sep : Str) (n : Nat) (cur s : Str) : splitGo sep n cur s ≠ [] := by
  induction s generalizing n cur with
  | nil => cases n <;> simp [splitGo]
  | cons x xs ih =>
    cases n with
    | zero => rw [splitGo]; split <;> simp [ih]
    | succ n => rw [splitGo]; exact ih _ _

/-- exactly two pieces -/
theorem unpack2_ok (sep : Str) (hne : sep ≠ []) (s a b : Str) :
    unpack2 sep s = .ok (a, b) ↔ First sep s a b ∧ ¬ sep <:+: b := by
  have one : ∀ a b, First sep s a b → splitStr sep s = a :: splitGo sep 0 [] b := by
    intro a b h
    rw [splitStr, splitGo_first sep hne [] s a b h]
    simp
  constructor
  · intro h
    by_cases hs : sep <:+: s
    · obtain ⟨a', b', hf⟩ := first_exists sep s hs
      rw [unpack2, one a' b' hf] at h
      by_cases hb : sep <:+: b'
      · obtain ⟨a2, b2, hf2⟩ := first_exists sep b' hb
        rw [splitGo_first sep hne [] b' a2 b2 hf2] at h
        rcases hx : splitGo sep 0 [] b2 with _ | ⟨y, ys⟩
        · exact absurd hx (splitGo_ne_nil _ _ _ _)
        · rw [hx] at h
          simp at h
      · rw [splitGo_none sep [] b' hb] at h
        simp only [List.reverse_nil, List.nil_append, Except.ok.injEq, Prod.mk.injEq] at h
        obtain ⟨rfl, rfl⟩ := h
        exact ⟨hf, hb⟩
    · rw [unpack2, splitStr, splitGo_none sep [] s hs] at h
      simp at h
  · rintro ⟨hf, hb⟩
    rw [unpack2, one a b hf, splitGo_none sep [] b hb]
    simp

theorem unpack2_err (sep s : Str) (h : ∀ a b, unpack2 sep s ≠ .ok (a, b)) : unpack2 sep s = .error .valueError := by
  rw [unpack2]
  split
  · rename_i a b e
    exact absurd (by rw [unpack2, e]) (h a b)
  · rfl

theorem unpack2_once (sep : Str) (hne : sep ≠ []) (s a b : Str) (e : s = a ++ sep ++ b)
    (h : ∀ a' b', s = a' ++ sep ++ b' → a' = a) : unpack2 sep s = .ok (a, b) := by
  rw [unpack2_ok sep hne]
  refine ⟨⟨e, fun a' b' e' => by rw [h a' b' e']⟩, ?_⟩
  rintro ⟨x, y, rfl⟩
  have := h (a ++ sep ++ x) y (by simp [e])
  have hl := congrArg List.length this
  simp only [List.length_append] at hl
  exact hne (List.length_eq_zero_iff.1 (by omega))

theorem unpack2_twice (sep : Str) (hne : sep ≠ []) (a b c : Str) :
    unpack2 sep (a ++ sep ++ (b ++ sep ++ c)) = .error .valueError := by
  refine unpack2_err _ _ fun x y h => ?_
  rw [unpack2_ok sep hne] at h
  obtain ⟨⟨e, hf⟩, hn⟩ := h
  have hl := hf a (b ++ sep ++ c) rfl
  -- the second occurrence lies in what follows the first
  have h1 : x ++ sep <+: a ++ sep ++ b := by
    have hp1 : x ++ sep <+: a ++ sep ++ (b ++ sep ++ c) := ⟨y, e.symm⟩
    have hp2 : a ++ sep ++ b <+: a ++ sep ++ (b ++ sep ++ c) := ⟨sep ++ c, by simp⟩
    exact List.prefix_of_prefix_length_le hp1 hp2 (by simp; omega)
  obtain ⟨t, ht⟩ := h1
  apply hn
  refine ⟨t, c, ?_⟩
  have : x ++ sep ++ (t ++ sep ++ c) = x ++ sep ++ y := by
    rw [← e, ← List.append_assoc, ← List.append_assoc, ht]
    simp
  exact List.append_cancel_left this

/-! ### joining what was split -/

theorem join_splitGo (sep : Str) (hne : sep ≠ []) (n : Nat) : ∀ s : Str, s.length ≤ n → Text.join sep (splitStr sep s) = s := by
  induction n with
  | zero =>
    intro s hs
    rw [List.length_eq_zero_iff.1 (Nat.le_zero.1 hs)]
    simp [splitStr, splitGo, Text.join]
  | succ n ih =>
    intro s hs
    by_cases h : sep <:+: s
    · obtain ⟨a, b, hf⟩ := first_exists sep s h
      rw [splitStr, splitGo_first sep hne [] s a b hf]
      have hb : b.length ≤ n := by
        have := congrArg List.length hf.1
        have h0 : 0 < sep.length := List.length_pos_iff.2 hne
        simp at this
        omega
      have := ih b hb
      rw [splitStr] at this
      rcases hx : splitGo sep 0 [] b with _ | ⟨y, ys⟩
      · exact absurd hx (splitGo_ne_nil _ _ _ _)
      · rw [hx] at this
        rw [Text.join, this, hf.1]
        simp
    · rw [splitStr, splitGo_none sep [] s h]
      simp [Text.join]

/-! ### digits -/

theorem digitsValue_iff (acc : Nat) (ds : Str) (n : Nat) :
    digitsValue acc ds = some n ↔ (∀ c ∈ ds, c.isDigit = true) ∧ acc * 10 ^ ds.length + Nat.ofDigits 10 (ds.reverse.map digit) = n := by
  induction ds generalizing acc with
  | nil => simp [digitsValue]
  | cons c cs ih =>
    rw [digitsValue]
    by_cases hc : c.isDigit = true
    · rw [if_pos hc, ih]
      have e : Nat.ofDigits 10 ((c :: cs).reverse.map digit) = Nat.ofDigits 10 (cs.reverse.map digit) + 10 ^ cs.length * digit c := by
        rw [List.reverse_cons, List.map_append, Nat.ofDigits_append]
        simp
      rw [e]
      simp only [List.mem_cons, forall_eq_or_imp, hc, true_and, List.length_cons]
      have : (10 * acc + (c.toNat - '0'.toNat)) * 10 ^ cs.length = acc * 10 ^ (cs.length + 1) + 10 ^ cs.length * digit c := by
        simp only [digit]
        ring
      rw [this]
      constructor
      · rintro ⟨h1, h2⟩
        exact ⟨h1, by omega⟩
      · rintro ⟨h1, h2⟩
        exact ⟨h1, by omega⟩
    · simp [hc]

theorem parseInt_written (ds : Str) (n : Nat) (h : Written ds n) : parseInt ds = .ok n := by
  obtain ⟨h0, h1, h2⟩ := h
  obtain ⟨c, cs, rfl⟩ := List.exists_cons_of_ne_nil h0
  rw [parseInt, (digitsValue_iff 0 (c :: cs) n).2 ⟨h1, by simpa using h2⟩]
  simp

theorem parseInt_ok (ds : Str) (k : Int) (h : parseInt ds = .ok k) : ∃ n : Nat, k = n ∧ Written ds n := by
  unfold parseInt at h
  split at h
  · cases h
  · rename_i hne
    split at h
    · cases h
    · rename_i n hn
      cases h
      obtain ⟨h1, h2⟩ := (digitsValue_iff 0 ds n).1 hn
      exact ⟨n, rfl, fun e => hne e, h1, by simpa using h2⟩

/-! ### names -/

theorem first_char (c : Char) (t : Str) (h : c ∈ t) : ∃ t1 t2, t = t1 ++ c :: t2 ∧ c ∉ t1 := by
  induction t with
  | nil => simp at h
  | cons x xs ih =>
    by_cases hx : x = c
    · exact ⟨[], xs, by simp [hx], by simp⟩
    · obtain ⟨t1, t2, e, hn⟩ := ih (by simpa [Ne.symm hx] using h)
      exact ⟨x :: t1, t2, by simp [e], by simp [hn, Ne.symm hx]⟩

theorem projectSequence_run (path project : Str) (n : Nat) (h : RunFile path project n) :
    ∃ ds rest, projectSequence path = project :: ds :: rest ∧ Written ds n := by
  obtain ⟨dir, ds, tail, rfl, hd, hw, ht, hts, hp1, hp2, hp3⟩ := h
  have hdig : ∀ c ∈ ds, c ≠ '/' ∧ c ≠ '_' ∧ c ≠ '.' := by
    intro c hc
    have := hw.2.1 c hc
    refine ⟨?_, ?_, ?_⟩ <;> (rintro rfl; exact absurd this (by decide))
  have hd1 : '/' ∉ ds := fun h => (hdig _ h).1 rfl
  have hd2 : '_' ∉ ds := fun h => (hdig _ h).2.1 rfl
  have hd3 : '.' ∉ ds := fun h => (hdig _ h).2.2 rfl
  rw [projectSequence, Batch.basename_append dir _ hd (by simp [hp1, hd1, hts])]
  have key : ∀ t : Str, '.' ∉ t → (∃ rest, splitC '_' (ds ++ t) = ds :: rest) →
      ∃ rest, splitC '_' (project ++ '_' :: (ds ++ t)) = project :: ds :: rest := by
    rintro t _ ⟨rest, e⟩
    exact ⟨rest, by rw [splitC_append _ _ _ hp2, e]⟩
  rcases ht with rfl | ⟨t, rfl | rfl⟩
  · rw [splitC_none '.' _ (by simp [hp3, hd3])]
    simp only
    obtain ⟨rest, e⟩ := key [] (by simp) ⟨[], by rw [List.append_nil, splitC_none _ _ hd2]⟩
    exact ⟨ds, rest, e, hw⟩
  · by_cases hdot : '.' ∈ t
    · obtain ⟨t1, t2, rfl, hn⟩ := first_char '.' t hdot
      have e0 : project ++ '_' :: (ds ++ '_' :: (t1 ++ '.' :: t2)) = (project ++ '_' :: (ds ++ '_' :: t1)) ++ '.' :: t2 := by simp
      rw [e0, splitC_append '.' _ _ (by simp [hp3, hd3, hn])]
      simp only
      obtain ⟨rest, e⟩ := key ('_' :: t1) (by simp [hn]) ⟨splitC '_' t1, by rw [splitC_append _ _ _ hd2]⟩
      exact ⟨ds, rest, e, hw⟩
    · rw [splitC_none '.' _ (by simp [hp3, hd3, hdot])]
      simp only
      obtain ⟨rest, e⟩ := key ('_' :: t) (by simp [hdot]) ⟨splitC '_' t, by rw [splitC_append _ _ _ hd2]⟩
      exact ⟨ds, rest, e, hw⟩
  · have e0 : project ++ '_' :: (ds ++ '.' :: t) = (project ++ '_' :: ds) ++ '.' :: t := by simp
    rw [e0, splitC_append '.' _ _ (by simp [hp3, hd3])]
    simp only
    obtain ⟨rest, e⟩ := key [] (by simp) ⟨[], by rw [List.append_nil, splitC_none _ _ hd2]⟩
    rw [List.append_nil] at e
    exact ⟨ds, rest, e, hw⟩

end Beep.Proof.Ingest
