import Verif.Model.Eis
import Verif.Spec.Eis
import Verif.Proof.Ingest
import Verif.Proof.Text
import Verif.Proof.Base
import Mathlib.Data.List.Forall2
/-
Lemmas about spectra.
-/
namespace Beep.Proof.Eis
open Beep Text Ingest Beep.Eis Spec.Eis Proof.Ingest

theorem join_splitC (c : Char) (s : Str) : join [c] (splitC c s) = s := by
  induction s with
  | nil => rfl
  | cons x xs ih =>
    rw [splitC]
    split
    · rename_i e
      rcases hs : splitC c xs with _ | ⟨p, ps⟩
      · exact absurd hs (splitC_ne_nil c xs)
      · rw [hs] at ih; simp [join, ih, e]
    · rcases hs : splitC c xs with _ | ⟨p, ps⟩
      · exact absurd hs (splitC_ne_nil c xs)
      · rw [hs] at ih
        cases ps with
        | nil => simp only [join] at ih ⊢; rw [ih]
        | cons q qs => simp only [join] at ih ⊢; rw [← ih]; simp

theorem splitC_snoc (c : Char) (s : Str) : ∃ init last, splitC c s = init ++ [last] ∧
    ∀ x, c ∉ x → splitC c (s ++ x) = init ++ [last ++ x] := by
  induction s with
  | nil => exact ⟨[], [], rfl, fun x hx => by simpa using splitC_none c x hx⟩
  | cons y ys ih =>
    obtain ⟨init, last, h1, h2⟩ := ih
    by_cases e : y = c
    · refine ⟨[] :: init, last, by simp [splitC, e, h1], fun x hx => by simp [splitC, e, h2 x hx]⟩
    · cases init with
      | nil =>
        refine ⟨[], y :: last, by simp [splitC, e, h1], fun x hx => by simp [splitC, e, h2 x hx]⟩
      | cons p ps =>
        refine ⟨(y :: p) :: ps, last, by simp [splitC, e, h1], fun x hx => by simp [splitC, e, h2 x hx]⟩

theorem join_snoc (c : Char) (init : List Str) (last x : Str) :
    join [c] (init ++ [last ++ x]) = join [c] (init ++ [last]) ++ x := by
  induction init with
  | nil => rfl
  | cons p ps ih =>
    cases ps with
    | nil => simp [join]
    | cons q qs =>
      simp only [List.cons_append, join] at ih ⊢
      rw [ih]; simp

theorem toks_plain (s t : Str) (h : Plain s) : toks 0 (s ++ t) = s.map Tok.lit ++ toks 0 t := by
  obtain ⟨h1, h2, h3⟩ := h
  induction s with
  | nil => rfl
  | cons c cs ih =>
    simp only [List.mem_cons, not_or] at h1 h2 h3
    rw [List.cons_append, toks, if_neg (Ne.symm h1.1), if_neg (Ne.symm h2.1), if_neg (Ne.symm h3.1), ih h1.2 h2.2 h3.2]
    rfl

theorem toks_plain' (s : Str) (h : Plain s) : toks 0 s = s.map Tok.lit := by
  have := toks_plain s [] h
  simpa [toks] using this

theorem fits_lits (s : Str) (ts : List Tok) (n : Str) :
    fits (s.map Tok.lit ++ ts) n = true ↔ ∃ n', n = s ++ n' ∧ fits ts n' = true := by
  induction s generalizing n with
  | nil => simp
  | cons c cs ih =>
    cases n with
    | nil => simp [fits]
    | cons d ds =>
      simp only [List.map_cons, List.cons_append, fits, Bool.and_eq_true, ih]
      constructor
      · rintro ⟨h, n', rfl, hf⟩
        simp [Tok.hits] at h
        exact ⟨n', by simp [h], hf⟩
      · rintro ⟨n', e, hf⟩
        simp only [List.cons.injEq] at e
        exact ⟨by simp [Tok.hits, e.1], n', e.2, hf⟩

theorem fits_lits' (s n : Str) : fits (s.map Tok.lit) n = true ↔ n = s := by
  have := fits_lits s [] n
  simp only [List.append_nil] at this
  rw [this]
  constructor
  · rintro ⟨n', rfl, hf⟩
    simp [fits] at hf
    simp [hf]
  · rintro rfl; exact ⟨[], by simp, rfl⟩

theorem fits_star (e n : Str) : fits (.star :: e.map Tok.lit) n = true ↔ ∃ m, n = m ++ e := by
  rw [fits, List.any_eq_true]
  constructor
  · rintro ⟨k, _, h⟩
    rw [fits_lits'] at h
    exact ⟨n.take k, by rw [← h, List.take_append_drop]⟩
  · rintro ⟨m, rfl⟩
    refine ⟨m.length, by simp; omega, ?_⟩
    rw [fits_lits']; simp

theorem partFits_plain (p n : Str) (h : Plain p) : partFits p n = true ↔ n = p := by
  unfold partFits
  rw [toks_plain' p h, Bool.and_eq_true, fits_lits']
  constructor
  · rintro ⟨_, e⟩; exact e
  · rintro rfl
    refine ⟨?_, rfl⟩
    by_cases hh : n.head? = some '.' <;> simp [hh]

theorem partFits_pattern (b e n : Str) (hb : Plain b) (he : Plain e) :
    partFits (b ++ (".*.".toList ++ e)) n = true ↔ ∃ mid, n = b ++ '.' :: mid ++ '.' :: e := by
  have htoks : toks 0 (b ++ (".*.".toList ++ e)) = (b ++ ['.']).map Tok.lit ++ (.star :: ('.' :: e).map Tok.lit) := by
    have e1 : b ++ (".*.".toList ++ e) = (b ++ ['.']) ++ ('*' :: '.' :: e) := by
      show b ++ ('.' :: '*' :: '.' :: e) = _
      simp
    have hb' : Plain (b ++ ['.']) := by
      obtain ⟨h1, h2, h3⟩ := hb
      refine ⟨?_, ?_, ?_⟩ <;> simp [h1, h2, h3]
    have he' : Plain ('.' :: e) := by
      obtain ⟨h1, h2, h3⟩ := he
      refine ⟨?_, ?_, ?_⟩ <;> simp [h1, h2, h3]
    rw [e1, toks_plain _ _ hb']
    congr 1
    rw [toks, if_pos rfl, toks_plain' _ he']
  unfold partFits
  rw [htoks, Bool.and_eq_true, fits_lits]
  constructor
  · rintro ⟨_, n', rfl, hf⟩
    obtain ⟨m, rfl⟩ := (fits_star _ _).mp hf
    exact ⟨m, by simp⟩
  · rintro ⟨mid, rfl⟩
    refine ⟨?_, mid ++ '.' :: e, by simp, (fits_star _ _).mpr ⟨mid, rfl⟩⟩
    cases b with
    | nil => rfl
    | cons c cs => by_cases hc : c = '.' <;> simp [hc]

theorem partsFit_snoc (init : List Str) (pat : Str) (ns : List Str) (h : ∀ p ∈ init, Plain p) :
    partsFit (init ++ [pat]) ns = true ↔ ∃ z, ns = init ++ [z] ∧ partFits pat z = true := by
  induction init generalizing ns with
  | nil =>
    cases ns with
    | nil => simp [partsFit]
    | cons n ns =>
      cases ns with
      | nil => simp [partsFit]
      | cons m ms => simp [partsFit]
  | cons p ps ih =>
    cases ns with
    | nil => simp [partsFit]
    | cons n ns =>
      simp only [List.cons_append, partsFit, Bool.and_eq_true]
      rw [partFits_plain p n (h p (by simp)), ih ns (fun q hq => h q (by simp [hq]))]
      constructor
      · rintro ⟨rfl, z, rfl, hz⟩; exact ⟨z, rfl, hz⟩
      · rintro ⟨z, e, hz⟩
        simp only [List.cons.injEq] at e
        exact ⟨e.1, z, e.2, hz⟩

theorem eisPattern_ext (raw stem ext : Str) (h : raw = stem ++ '.' :: ext) (he : '.' ∉ ext) :
    eisPattern raw = stem ++ (".*.".toList ++ ext) := by
  unfold eisPattern rsplitDot
  have : raw.reverse = ext.reverse ++ '.' :: stem.reverse := by rw [h]; simp
  rw [this, split1_append _ _ _ (by simpa using he)]
  simp [join]

theorem glob_iff (raw stem ext : Str) (files : List Str) (hx : Extended raw stem ext) (hp : Plain raw) (p : Str) :
    p ∈ glob (eisPattern raw) files ↔ p ∈ files ∧ ∃ mid, '/' ∉ mid ∧ p = stem ++ '.' :: mid ++ '.' :: ext := by
  obtain ⟨hraw, hdot, hslash⟩ := hx
  have hps : Plain stem := by
    obtain ⟨h1, h2, h3⟩ := hp
    subst hraw
    simp only [List.mem_append, List.mem_cons, not_or] at h1 h2 h3
    exact ⟨h1.1, h2.1, h3.1⟩
  have hpe : Plain ext := by
    obtain ⟨h1, h2, h3⟩ := hp
    subst hraw
    simp only [List.mem_append, List.mem_cons, not_or] at h1 h2 h3
    exact ⟨h1.2.2, h2.2.2, h3.2.2⟩
  obtain ⟨init, last, hs, hsx⟩ := splitC_snoc '/' stem
  have hpat : splitC '/' (eisPattern raw) = init ++ [last ++ (".*.".toList ++ ext)] := by
    rw [eisPattern_ext raw stem ext hraw hdot]
    apply hsx
    show '/' ∉ '.' :: '*' :: '.' :: ext
    simp [hslash]
  have hsub : ∀ q ∈ init ++ [last], Plain q := by
    intro q hq
    have hmem : ∀ c, c ∈ q → c ∈ stem := by
      intro c hc
      rw [← join_splitC '/' stem, hs]
      clear hs hsx hpat
      generalize init ++ [last] = l at hq
      induction l with
      | nil => simp at hq
      | cons a as ih =>
        cases as with
        | nil => simp at hq; subst hq; simpa [join] using hc
        | cons b bs =>
          rw [join]
          rcases List.mem_cons.mp hq with rfl | hq
          · simp [hc]
          · simp [ih hq]
    exact ⟨fun h => hps.1 (hmem _ h), fun h => hps.2.1 (hmem _ h), fun h => hps.2.2 (hmem _ h)⟩
  unfold glob
  rw [List.mem_filter, hpat, partsFit_snoc _ _ _ (fun q hq => hsub q (by simp [hq]))]
  refine and_congr_right (fun _ => ?_)
  constructor
  · rintro ⟨z, hz, hf⟩
    obtain ⟨mid, rfl⟩ := (partFits_pattern last ext z (hsub last (by simp)) hpe).mp hf
    refine ⟨mid, ?_, ?_⟩
    · intro hm
      have : '/' ∉ last ++ '.' :: mid ++ '.' :: ext := mem_splitC_not '/' p _ (by rw [hz]; simp)
      exact this (by simp [hm])
    · have e := join_splitC '/' p
      rw [hz, List.append_assoc, join_snoc, ← hs, join_splitC] at e
      rw [← e]; simp
  · rintro ⟨mid, hm, rfl⟩
    refine ⟨last ++ '.' :: mid ++ '.' :: ext, ?_, (partFits_pattern last ext _ (hsub last (by simp)) hpe).mpr ⟨mid, rfl⟩⟩
    rw [List.append_assoc, hsx _ (by simp [hm, hslash])]
    simp
where
  mem_splitC_not (c : Char) (s : Str) : ∀ f ∈ splitC c s, c ∉ f := by
    induction s with
    | nil => simp [splitC]
    | cons x xs ih =>
      rw [splitC]
      split
      · intro f hf
        rcases List.mem_cons.mp hf with rfl | hf
        · simp
        · exact ih f hf
      · rename_i e
        rcases hs : splitC c xs with _ | ⟨p, ps⟩
        · exact absurd hs (splitC_ne_nil c xs)
        · rw [hs] at ih
          intro f hf
          rcases List.mem_cons.mp hf with rfl | hf
          · simp [Ne.symm e, ih p (by simp)]
          · exact ih f (by simp [hf])

/-! ### reading -/

theorem wordsGo_words (s cur : Str) (hc : ∀ c ∈ cur, isWs c = false) :
    (cur = [] → Words s (wordsGo [] s)) ∧
    (cur ≠ [] → Words (cur.reverse ++ s) (wordsGo cur s)) := by
  induction s generalizing cur with
  | nil =>
    constructor
    · intro _; exact Words.none [] (by simp)
    · intro hne
      have e : wordsGo cur [] = [cur.reverse] := by
        rw [wordsGo, if_neg (by simpa using hne)]
      rw [e]
      have := Words.cons [] cur.reverse [] [] (by simp) (by simpa using hc) (by simpa using hne) (Or.inl rfl)
        (Words.none [] (by simp))
      simpa using this
  | cons x xs ih =>
    have ih0 : Words xs (wordsGo [] xs) := (ih [] (by simp)).1 rfl
    have prepend : ∀ (g s : Str) (ws : List Str), (∀ c ∈ g, isWs c = true) → Words s ws → Words (g ++ s) ws := by
      intro g s ws hg h
      cases h with
      | none _ h => exact Words.none _ (by intro c hc; rcases List.mem_append.mp hc with hc | hc; exact hg c hc; exact h c hc)
      | cons gap w rest ws hg' hw hne hr h =>
        have := Words.cons (g ++ gap) w rest ws
          (by intro c hc; rcases List.mem_append.mp hc with hc | hc; exact hg c hc; exact hg' c hc) hw hne hr h
        simpa using this
    by_cases hx : isWs x = true
    · constructor
      · intro _
        rw [wordsGo, if_pos hx]
        simp only [List.isEmpty_nil, if_true]
        have := prepend [x] xs _ (by simpa using hx) ih0
        simpa using this
      · intro hne
        rw [wordsGo, if_pos hx, if_neg (by simpa using hne)]
        have h2 := prepend [x] xs _ (by simpa using hx) ih0
        have := Words.cons [] cur.reverse (x :: xs) _ (by simp) (by simpa using hc) (by simpa using hne)
          (Or.inr ⟨x, xs, rfl, hx⟩) h2
        simpa using this
    · have hx' : isWs x = false := by simpa using hx
      have h3 := (ih (x :: cur) (by intro c hc'; rcases List.mem_cons.mp hc' with rfl | h; exact hx'; exact hc c h)).2 (by simp)
      constructor
      · rintro rfl
        rw [wordsGo, if_neg hx]; simpa using h3
      · intro _
        rw [wordsGo, if_neg hx]; simpa using h3

theorem words_words (s : Str) : Words s (words s) := (wordsGo_words s [] (by simp)).1 rfl

theorem replaceStr_replaced (old new : Str) (hne : old ≠ []) : ∀ (n : Nat) (s : Str), s.length ≤ n →
    Replaced old new s (replaceStr old new s) := by
  intro n
  induction n with
  | zero =>
    intro s hs
    have : s = [] := List.length_eq_zero_iff.mp (by omega)
    subst this
    have hn : ¬ old <:+: [] := by simpa using hne
    have e : replaceStr old new [] = [] := by simp [replaceStr, splitStr, splitGo, join]
    rw [e]; exact Replaced.none [] hn
  | succ n ih =>
    intro s hs
    by_cases h : old <:+: s
    · obtain ⟨a, b, hf⟩ := first_exists old s h
      have hsplit : splitStr old s = a :: splitStr old b := by
        unfold splitStr
        rw [splitGo_first old hne [] s a b hf]; simp
      have e : replaceStr old new s = a ++ new ++ replaceStr old new b := by
        unfold replaceStr
        rw [hsplit]
        rcases hb : splitStr old b with _ | ⟨p, ps⟩
        · exact absurd hb (splitGo_ne_nil _ _ _ _)
        · simp [join]
      rw [e]
      obtain ⟨hs', hmin⟩ := hf
      have hlen : b.length ≤ n := by
        have h1 : 0 < old.length := List.length_pos_of_ne_nil hne
        have : s.length = a.length + old.length + b.length := by rw [hs']; simp; omega
        omega
      rw [hs']
      refine Replaced.first a b _ ?_ (ih b hlen)
      intro a' b' e'
      exact hmin a' b' (hs'.trans e')
    · have e : replaceStr old new s = s := by
        unfold replaceStr splitStr
        rw [splitGo_none old [] s h]; simp [join]
      rw [e]; exact Replaced.none s h

end Beep.Proof.Eis
