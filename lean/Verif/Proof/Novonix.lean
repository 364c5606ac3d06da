import Verif.Proof.Base
import Verif.Proof.Py
import Verif.Proof.Text
import Verif.Spec.Novonix
/-
Lemmas for Novonix files.
-/
namespace Beep.Novonix
open Beep Text Beep.Spec.Novonix

/-! ### Header and table -/

theorem header_iff (l : Str) : containsSub "Cycle Number".toList l = true ↔ IsHeader l := containsSub_iff _ _

theorem blank_iff (l : Str) : blank l = true ↔ IsBlank l := by
  unfold blank IsBlank; rw [List.all_eq_true]

/-- the search finds the first header -/
theorem scan_found (before : List Str) (header : Str) (after : List Str) (h1 : ∀ l ∈ before, ¬IsHeader l) (h2 : IsHeader header) :
    ∀ (i : Nat) (b e : Bool) (m : Dict Str (Option Str)), i + before.length < 500 →
      ∃ m', scan i b e m (before ++ header :: after) = .ok (i + before.length, m') := by
  induction before with
  | nil =>
    intro i b e m hi
    rw [List.nil_append, scan]
    simp only [(header_iff header).mpr h2]
    rw [if_neg (by simp at hi; omega)]
    exact ⟨_, rfl⟩
  | cons l before ih =>
    intro i b e m hi
    have hn : containsSub "Cycle Number".toList l = false := by
      rw [← Bool.not_eq_true, header_iff]; exact h1 l (List.mem_cons_self ..)
    rw [List.cons_append, scan]
    simp only [hn]
    rw [if_neg (by simp at hi; omega)]
    simp only [Bool.false_eq_true, if_false]
    obtain ⟨m', hm⟩ := ih (fun l hl => h1 l (List.mem_cons_of_mem _ hl)) (i + 1) _ _ _ (by simp at hi ⊢; omega)
    exact ⟨m', by rw [hm, List.length_cons]; congr 2; omega⟩

theorem scan_far (lines : List Str) : ∀ (i : Nat) (b e : Bool) (m : Dict Str (Option Str)),
    (∀ l ∈ lines.take (499 - (i - 1)), ¬IsHeader l) → 1 ≤ i → scan i b e m lines = .error .keyError := by
  induction lines with
  | nil => intro i b e m _ _; rfl
  | cons l lines ih =>
    intro i b e m h hi
    rw [scan]
    by_cases h5 : 500 < i + 1
    · simp only [if_pos h5]
    · simp only [if_neg h5]
      have e1 : 499 - (i - 1) = (499 - (i + 1 - 1)) + 1 := by omega
      rw [e1, List.take_succ_cons] at h
      have hn : containsSub "Cycle Number".toList l = false := by
        rw [← Bool.not_eq_true, header_iff]; exact h l (List.mem_cons_self ..)
      simp only [hn, Bool.false_eq_true, if_false]
      exact ih (i + 1) _ _ _ (fun l hl => h l (List.mem_cons_of_mem _ hl)) (by omega)

theorem header_not_blank (l : Str) (h : IsHeader l) : blank l = false := by
  rw [← Bool.not_eq_true, blank_iff]
  intro hb
  obtain ⟨a, b, e⟩ := h
  have : 'C' ∈ l := by rw [← e]; simp
  have := hb 'C' this
  revert this; decide

theorem text_eq (t e : Str) (he : e ∈ [[], ['\n'], ['\r', '\n']]) (ht : ∀ c ∈ t, c ≠ '\n' ∧ c ≠ '\r') : text (t ++ e) = t := by
  have key : ((t.reverse).dropWhile (fun c => decide (c = '\n' ∨ c = '\r'))) = t.reverse := by
    cases h : t.reverse with
    | nil => rfl
    | cons c cs =>
      have hc : c ∈ t := by rw [← List.mem_reverse, h]; exact List.mem_cons_self ..
      rw [List.dropWhile_cons_of_neg]
      simp [ht c hc]
  unfold text
  rw [List.reverse_append]
  simp only [List.mem_cons, List.not_mem_nil, or_false] at he
  rcases he with rfl | rfl | rfl
  · simp only [List.reverse_nil, List.nil_append, key, List.reverse_reverse]
  · simp only [List.reverse_cons, List.reverse_nil, List.nil_append, List.cons_append]
    rw [List.dropWhile_cons_of_pos (by decide), key, List.reverse_reverse]
  · simp only [List.reverse_cons, List.reverse_nil, List.nil_append, List.cons_append]
    rw [List.dropWhile_cons_of_pos (by decide), List.dropWhile_cons_of_pos (by decide), key, List.reverse_reverse]

theorem join_intercalate (c : Char) (l : List Str) : join [c] l = List.intercalate [c] l := by
  induction l with
  | nil => rfl
  | cons a l ih =>
    cases l with
    | nil => simp [join, List.intercalate]
    | cons b l =>
      rw [join, ih]
      simp [List.intercalate]

theorem splitC_fields (c : Char) (s : Str) : (splitC c s) ≠ [] ∧ (∀ f ∈ splitC c s, c ∉ f) ∧ s = join [c] (splitC c s) := by
  induction s with
  | nil => simp [splitC, join]
  | cons x xs ih =>
    obtain ⟨h1, h2, h3⟩ := ih
    rw [splitC]
    split
    · next e =>
      subst e
      refine ⟨by simp, ?_, ?_⟩
      · intro f hf
        rcases List.mem_cons.mp hf with rfl | hf
        · simp
        · exact h2 f hf
      · cases hs : splitC x xs with
        | nil => exact absurd hs h1
        | cons p ps =>
          rw [join, ← hs, ← h3]
          simp
    · next e =>
      cases hs : splitC c xs with
      | nil => exact absurd hs h1
      | cons p ps =>
        refine ⟨by simp, ?_, ?_⟩
        · intro f hf
          rcases List.mem_cons.mp hf with rfl | hf
          · intro hc
            rcases List.mem_cons.mp hc with rfl | hc
            · exact e rfl
            · exact h2 p (by rw [hs]; exact List.mem_cons_self ..) hc
          · exact h2 f (by rw [hs]; exact List.mem_cons_of_mem _ hf)
        · rw [hs] at h3
          cases ps with
          | nil => rw [join] at h3 ⊢; rw [h3]
          | cons q qs => rw [join] at h3 ⊢; rw [h3]; simp

theorem fields_of (l : Str) (h : IsLine l) : Fields l (splitC ',' (text l)) := by
  obtain ⟨t, e, rfl, he, ht⟩ := h
  rw [text_eq t e he ht]
  obtain ⟨h1, h2, h3⟩ := splitC_fields ',' t
  exact ⟨t, e, rfl, he, ht, h1, h2, by rw [← join_intercalate]; exact h3⟩

theorem read_eq (lines before : List Str) (header : Str) (after : List Str) (h : FirstHeader lines before header after)
    (hl : before.length < 499) :
    ∃ m, read lines = match (((before.filter (fun l => !blank l)) ++ header :: (after.filter (fun l => !blank l))).drop before.length).map
        (fun l => splitC ',' (text l)) with
      | [] => .error .indexError
      | hs :: rows => .ok (m, { headers := hs, rows := rows }) := by
  obtain ⟨rfl, h1, h2⟩ := h
  obtain ⟨m, hm⟩ := scan_found before header after h1 h2 1 false false start (by omega)
  refine ⟨m, ?_⟩
  unfold read table
  rw [hm]
  simp only [show 1 + before.length - 1 = before.length by omega]
  have e : (before ++ header :: after).filter (fun l => !blank l) =
      (before.filter (fun l => !blank l)) ++ header :: (after.filter (fun l => !blank l)) := by
    rw [List.filter_append, List.filter_cons, if_pos]
    rw [header_not_blank header h2]; rfl
  rw [e]
  cases (((before.filter (fun l => !blank l)) ++ header :: (after.filter (fun l => !blank l))).drop before.length).map
        (fun l => splitC ',' (text l)) with
  | nil => rfl
  | cons a b => rfl

/-! ### Metadata -/

theorem infix_split {p a b : Str} {c : Char} (hc : c ∉ p) (h : p <:+: a ++ c :: b) : p <:+: a ∨ p <:+: b := by
  obtain ⟨x, y, e⟩ := h
  rcases List.append_eq_append_iff.mp e with ⟨z, hz1, hz2⟩ | ⟨z, hz1, hz2⟩
  · -- a = (x ++ p) ++ z
    left; exact ⟨x, z, hz1.symm⟩
  · -- x ++ p = a ++ z, c :: b = z ++ y
    cases z with
    | nil =>
      left
      exact ⟨x, [], by simpa using hz1⟩
    | cons d z =>
      have ed : d = c := by simp at hz2; exact hz2.1.symm
      subst ed
      have eb : b = z ++ y := by simp at hz2; exact hz2
      -- p is a suffix of z
      rcases List.append_eq_append_iff.mp hz1 with ⟨w, hw1, hw2⟩ | ⟨w, hw1, hw2⟩
      · exact absurd (by rw [hw2]; simp) hc
      · cases w with
        | nil =>
          simp at hw2
          exact absurd (by rw [← hw2]; simp) hc
        | cons g w =>
          right
          have : z = w ++ p := by simp at hw2; exact hw2.2
          exact ⟨w, y, by rw [eb, this]⟩

theorem entryOf_iff (s key : Str) : entryOf s = some key ↔ LabelOf s key := by
  have hf : fields = labels.map (fun p => (p.1.toList, p.2.toList)) := by decide +kernel
  unfold entryOf LabelOf
  rw [hf, List.find?_map, Option.map_map]
  constructor
  · intro h
    rw [Option.map_eq_some_iff] at h
    obtain ⟨p, hp, e⟩ := h
    rw [List.find?_eq_some_iff_append] at hp
    obtain ⟨h1, a, b, h2, h3⟩ := hp
    refine ⟨a, p, b, h2, e, (containsSub_iff _ _).mp h1, ?_⟩
    intro q hq hin
    have := h3 q hq
    simp only [Function.comp, Bool.not_eq_eq_eq_not, Bool.not_true] at this
    rw [(containsSub_iff _ _).mpr hin] at this
    cases this
  · rintro ⟨a, p, b, h2, e, h1, h3⟩
    rw [Option.map_eq_some_iff]
    refine ⟨p, ?_, e⟩
    rw [List.find?_eq_some_iff_append]
    refine ⟨(containsSub_iff _ _).mpr h1, a, b, h2, ?_⟩
    intro q hq
    have := h3 q hq
    rw [← containsSub_iff] at this
    simpa [Function.comp] using this

theorem escape_plain {c : Char} (h : PlainChar c ∨ c = ':') : escape '\'' c = [c] := by
  unfold escape
  rcases h with ⟨h1, h2, h3, h4, _⟩ | rfl
  · have : c ≠ '\t' := by rintro rfl; revert h1; decide
    have h5 : c ≠ '\n' := by rintro rfl; revert h1; decide
    have h6 : c ≠ '\r' := by rintro rfl; revert h1; decide
    rw [if_neg h4, if_neg h3, if_neg this, if_neg h5, if_neg h6, if_neg (by omega)]
  · decide

theorem flatMap_plain {t : Str} (h : ∀ c ∈ t, PlainChar c ∨ c = ':') : t.flatMap (escape '\'') = t := by
  induction t with
  | nil => rfl
  | cons c t ih =>
    rw [List.flatMap_cons, escape_plain (h c (List.mem_cons_self ..)), ih (fun c hc => h c (List.mem_cons_of_mem _ hc))]
    rfl

theorem no_quote {t : Str} (h : ∀ c ∈ t, PlainChar c ∨ c = ':') : '\'' ∉ t := by
  intro hc
  rcases h _ hc with ⟨_, _, h3, _⟩ | h
  · exact h3 rfl
  · revert h; decide

theorem repr_plain (t e : Str) (ht : ∀ c ∈ t, PlainChar c ∨ c = ':') (he : e = ['\n'] ∨ e = ['\r', '\n']) :
    repr (t ++ e) = 'b' :: '\'' :: (t ++ (e.flatMap (escape '\'')) ++ ['\'']) := by
  have hq : ¬('\'' ∈ t ++ e ∧ '"' ∉ t ++ e) := by
    rintro ⟨h, _⟩
    rcases List.mem_append.mp h with h | h
    · exact no_quote ht h
    · rcases he with rfl | rfl <;> revert h <;> decide
  unfold repr
  simp only [if_neg hq]
  rw [List.flatMap_append, flatMap_plain ht]

theorem labels_clean : ∀ p ∈ labels, '\'' ∉ p.1.toList ∧ '\\' ∉ p.1.toList ∧ '\n' ∉ p.1.toList ∧ '\r' ∉ p.1.toList ∧
    ¬ p.1.toList <:+: ['b'] ∧ ¬ p.1.toList <:+: ['n'] ∧ ¬ p.1.toList <:+: ['r'] ∧ ¬ p.1.toList <:+: [] := by
  decide +kernel

/-- a label is in `str(line)` when it is in the line -/
theorem label_repr (t e : Str) (ht : ∀ c ∈ t, PlainChar c ∨ c = ':') (he : e = ['\n'] ∨ e = ['\r', '\n'])
    (p : String × String) (hp : p ∈ labels) : p.1.toList <:+: repr (t ++ e) ↔ p.1.toList <:+: t ++ e := by
  obtain ⟨h1, h2, h3, h4, h5, h6, h7, h8⟩ := labels_clean p hp
  rw [repr_plain t e ht he]
  constructor
  · intro h
    rcases infix_split (a := ['b']) h1 h with h | h
    · exact absurd h h5
    · have ht' : p.1.toList <:+: t := by
        rcases he with rfl | rfl
        · have e1 : t ++ List.flatMap (escape '\'') ['\n'] ++ ['\''] = t ++ '\\' :: (['n'] ++ '\'' :: []) := by
            rw [show List.flatMap (escape '\'') ['\n'] = ['\\', 'n'] by decide]; simp
          rw [e1] at h
          rcases infix_split h2 h with h | h
          · exact h
          · rcases infix_split h1 h with h | h
            · exact absurd h h6
            · exact absurd h h8
        · have e1 : t ++ List.flatMap (escape '\'') ['\r', '\n'] ++ ['\''] = t ++ '\\' :: (['r'] ++ '\\' :: (['n'] ++ '\'' :: [])) := by
            rw [show List.flatMap (escape '\'') ['\r', '\n'] = ['\\', 'r', '\\', 'n'] by decide]; simp
          rw [e1] at h
          rcases infix_split h2 h with h | h
          · exact h
          · rcases infix_split h2 h with h | h
            · exact absurd h h7
            · rcases infix_split h1 h with h | h
              · exact absurd h h6
              · exact absurd h h8
      exact ht'.trans (List.prefix_append _ _).isInfix
  · intro h
    have ht' : p.1.toList <:+: t := by
      rcases he with rfl | rfl
      · rcases infix_split h3 h with h | h
        · exact h
        · exact absurd h h8
      · rcases infix_split h4 h with h | h
        · exact h
        · rcases infix_split (a := []) h3 h with h | h
          · exact absurd h h8
          · exact absurd h h8
    refine ht'.trans ⟨['b', '\''], List.flatMap (escape '\'') e ++ ['\''], by simp⟩

theorem labelOf_repr (t e : Str) (ht : ∀ c ∈ t, PlainChar c ∨ c = ':') (he : e = ['\n'] ∨ e = ['\r', '\n']) (key : Str) :
    LabelOf (repr (t ++ e)) key ↔ LabelOf (t ++ e) key := by
  unfold LabelOf
  constructor
  · rintro ⟨a, p, b, h1, h2, h3, h4⟩
    refine ⟨a, p, b, h1, h2, (label_repr t e ht he p (by rw [h1]; simp)).mp h3, fun q hq hin => ?_⟩
    exact h4 q hq ((label_repr t e ht he q (by rw [h1]; simp [hq])).mpr hin)
  · rintro ⟨a, p, b, h1, h2, h3, h4⟩
    refine ⟨a, p, b, h1, h2, (label_repr t e ht he p (by rw [h1]; simp)).mpr h3, fun q hq hin => ?_⟩
    exact h4 q hq ((label_repr t e ht he q (by rw [h1]; simp [hq])).mp hin)

theorem splitC_last (c : Char) (a s : Str) (h : c ∉ s) : (splitC c (a ++ c :: s)).getLastD [] = s := by
  induction a with
  | nil => rw [List.nil_append, splitC, if_pos rfl, splitC_none c s h]; rfl
  | cons x a ih =>
    rw [List.cons_append, splitC]
    have hne := splitC_ne_nil c (a ++ c :: s)
    split
    · cases hs : splitC c (a ++ c :: s) with
      | nil => exact absurd hs hne
      | cons p ps => rw [hs] at ih; rw [← ih]; rfl
    · cases hs : splitC c (a ++ c :: s) with
      | nil => exact absurd hs hne
      | cons p ps =>
        rw [hs] at ih
        cases ps with
        | nil =>
          -- impossible: a split at a separator has two pieces
          exfalso
          have hj := (splitC_fields c (a ++ c :: s)).2
          rw [hs] at hj
          have h1 := hj.1 p (List.mem_cons_self ..)
          have h2 := hj.2
          rw [join] at h2
          exact h1 (by rw [← h2]; simp)
        | cons q qs => rw [← ih]; rfl

theorem plain_not_ws {c : Char} (h : PlainChar c) (hs : c ≠ ' ') : isWs c = false := by
  obtain ⟨h1, h2, _⟩ := h
  unfold isWs
  rw [decide_eq_false_iff_not]
  intro hm
  have : c.toNat ≠ 32 := fun e => hs (Char.toNat_inj.mp e)
  simp only [List.mem_cons, List.not_mem_nil, or_false] at hm
  omega

theorem dropNewline_plain (v s : Str) (h : '\\' ∉ v) : dropNewline (v ++ s) = v ++ dropNewline s := by
  induction v with
  | nil => rfl
  | cons c v ih =>
    have hc : c ≠ '\\' := by rintro rfl; exact h (List.mem_cons_self ..)
    rw [List.cons_append, dropNewline]
    · rw [ih (fun hm => h (List.mem_cons_of_mem _ hm))]; rfl
    · intro _ e; exact absurd e hc

theorem value_entry (pre : Str) (n : Nat) (v tail out : Str) (hv : Plain v) (ht : Trimmed v) (hcol : ':' ∉ tail)
    (hlast : tail.getLast? = some '\'') (hout : (dropNewline tail).filter (fun c => !decide (c = '\'')) = out) :
    value (pre ++ ':' :: (List.replicate n ' ' ++ v ++ tail)) = some (v ++ out) := by
  have hc : ':' ∉ List.replicate n ' ' ++ v ++ tail := by
    intro h
    rcases List.mem_append.mp h with h | h
    · rcases List.mem_append.mp h with h | h
      · have := (List.mem_replicate.mp h).2; revert this; decide
      · exact (hv _ h).2.2.2.2 rfl
    · exact hcol h
  unfold value
  rw [splitC_last ':' pre _ hc]
  have hstrip : strip (List.replicate n ' ' ++ v ++ tail) = v ++ tail := by
    have := strip_mid (List.replicate n ' ') (v ++ tail) [] (fun c hc => by
      rw [(List.mem_replicate.mp hc).2]; decide) (by simp) (by
        intro c hc
        cases v with
        | nil => exact absurd rfl ht.1
        | cons d v =>
          simp at hc; subst hc
          exact plain_not_ws (hv _ (List.mem_cons_self ..)) (ht.2.1 _ rfl)) (by
        intro c hc
        rw [List.getLast?_append, hlast] at hc
        simp at hc; subst hc; decide)
    rw [List.append_nil, ← List.append_assoc] at this
    exact this
  rw [hstrip, dropNewline_plain v tail (fun h => (hv _ h).2.2.2.1 rfl), List.filter_append, hout]
  have hf : v.filter (fun c => !decide (c = '\'')) = v := by
    rw [List.filter_eq_self]
    intro c hc
    have := (hv c hc).2.2.1
    simp [this]
  rw [hf]
  simp only []
  rw [if_neg]
  intro e
  exact ht.1 (List.append_eq_nil_iff.mp e).1

theorem entry_plain (l val e : Str) (h : AfterColon l val e) :
    ∃ t, l = t ++ e ∧ (∀ c ∈ t, PlainChar c ∨ c = ':') ∧
      ∃ pre n, t = pre ++ ':' :: (List.replicate n ' ' ++ val) ∧ Plain val ∧ Trimmed val := by
  obtain ⟨pre, n, rfl, h1, h2, h3⟩ := h
  refine ⟨pre ++ ':' :: (List.replicate n ' ' ++ val), by simp, ?_, pre, n, rfl, h2, h3⟩
  intro c hc
  rcases List.mem_append.mp hc with hc | hc
  · exact h1 c hc
  · rcases List.mem_cons.mp hc with rfl | hc
    · exact .inr rfl
    · rcases List.mem_append.mp hc with hc | hc
      · left
        rw [(List.mem_replicate.mp hc).2]
        unfold PlainChar; decide
      · exact .inl (h2 c hc)

theorem update_entry (m : Dict Str (Option Str)) (l val e key out : Str) (h : AfterColon l val e) (hk : LabelOf l key)
    (he : (e = ['\n'] ∧ out = []) ∨ (e = ['\r', '\n'] ∧ out = ['\\', 'r'])) : update m l = m.set key (some (val ++ out)) := by
  obtain ⟨t, rfl, ht, pre, n, e1, hv, htr⟩ := entry_plain l val e h
  have he' : e = ['\n'] ∨ e = ['\r', '\n'] := he.elim (fun h => .inl h.1) (fun h => .inr h.1)
  have hk' : entryOf (repr (t ++ e)) = some key := (entryOf_iff _ _).mpr ((labelOf_repr t e ht he' key).mpr hk)
  have hval : value (repr (t ++ e)) = some (val ++ out) := by
    rw [repr_plain t e ht he', e1]
    have e2 : 'b' :: '\'' :: (pre ++ ':' :: (List.replicate n ' ' ++ val) ++ List.flatMap (escape '\'') e ++ ['\'']) =
        ('b' :: '\'' :: pre) ++ ':' :: (List.replicate n ' ' ++ val ++ (List.flatMap (escape '\'') e ++ ['\''])) := by simp
    rw [e2]
    rcases he with ⟨rfl, rfl⟩ | ⟨rfl, rfl⟩
    · exact value_entry _ n val _ [] hv htr (by decide) (by decide) (by decide)
    · exact value_entry _ n val _ ['\\', 'r'] hv htr (by decide) (by decide) (by decide)
  unfold update
  rw [hk', hval]

theorem update_other (m : Dict Str (Option Str)) (l key : Str) (h : Ordinary l) (hk : ¬LabelOf l key) :
    (update m l).get? key = m.get? key := by
  obtain ⟨t, rfl, ht⟩ := h
  unfold update
  cases h : entryOf (repr (t ++ ['\n'])) with
  | none => rfl
  | some k =>
    simp only
    rw [Dict.get?_set_ne]
    rintro rfl
    exact hk ((labelOf_repr t _ ht (.inl rfl) _).mp ((entryOf_iff _ _).mp h))

/-! ### Bytes that are not ASCII -/

theorem byte_escape {c x y : Char} (h1 : 127 ≤ c.toNat) (hx : "0123456789abcdef".toList[c.toNat / 16]? = some x)
    (hy : "0123456789abcdef".toList[c.toNat % 16]? = some y) : escape '\'' c = ['\\', 'x', x, y] := by
  have e1 : c ≠ '\\' := by rintro rfl; revert h1; decide
  have e2 : c ≠ '\'' := by rintro rfl; revert h1; decide
  have e3 : c ≠ '\t' := by rintro rfl; revert h1; decide
  have e4 : c ≠ '\n' := by rintro rfl; revert h1; decide
  have e5 : c ≠ '\r' := by rintro rfl; revert h1; decide
  unfold escape
  rw [if_neg e1, if_neg e2, if_neg e3, if_neg e4, if_neg e5, if_pos (.inr h1)]
  unfold hex
  rw [List.getD_eq_getElem?_getD, List.getD_eq_getElem?_getD, hx, hy]
  rfl

theorem labels_ascii : ∀ p ∈ labels, (∀ c ∈ p.1.toList, c.toNat < 127) ∧ 3 < p.1.toList.length := by
  decide +kernel

theorem infix_short {l m : Str} (h : m.length < l.length) : ¬ l <:+: m := fun hi => by
  have := hi.length_le; omega

theorem repr_byte (t : Str) (c x y : Char) (ht : ∀ c ∈ t, PlainChar c ∨ c = ':') (h1 : 127 ≤ c.toNat)
    (hx : "0123456789abcdef".toList[c.toNat / 16]? = some x) (hy : "0123456789abcdef".toList[c.toNat % 16]? = some y) :
    repr (t ++ [c, '\n']) = 'b' :: '\'' :: (t ++ '\\' :: (['x', x, y] ++ '\\' :: (['n'] ++ '\'' :: []))) := by
  have hq : ¬('\'' ∈ t ++ [c, '\n'] ∧ '"' ∉ t ++ [c, '\n']) := by
    rintro ⟨h, _⟩
    rcases List.mem_append.mp h with h | h
    · exact no_quote ht h
    · rcases List.mem_cons.mp h with rfl | h
      · revert h1; decide
      · revert h; decide
  unfold repr
  simp only [if_neg hq]
  rw [List.flatMap_append, flatMap_plain ht, List.flatMap_cons, byte_escape h1 hx hy,
    show List.flatMap (escape '\'') ['\n'] = ['\\', 'n'] by decide]
  simp

theorem label_byte (t : Str) (c x y : Char) (ht : ∀ c ∈ t, PlainChar c ∨ c = ':') (h1 : 127 ≤ c.toNat)
    (hx : "0123456789abcdef".toList[c.toNat / 16]? = some x) (hy : "0123456789abcdef".toList[c.toNat % 16]? = some y)
    (p : String × String) (hp : p ∈ labels) : p.1.toList <:+: repr (t ++ [c, '\n']) ↔ p.1.toList <:+: t ++ [c, '\n'] := by
  obtain ⟨q1, q2, q3, _, q5, q6, _, q8⟩ := labels_clean p hp
  obtain ⟨a1, a2⟩ := labels_ascii p hp
  have hc : c ∉ p.1.toList := fun h => by have := a1 c h; omega
  rw [repr_byte t c x y ht h1 hx hy]
  constructor
  · intro h
    rcases infix_split (a := ['b']) q1 h with h | h
    · exact absurd h q5
    · rcases infix_split q2 h with h | h
      · exact h.trans (List.prefix_append _ _).isInfix
      · rcases infix_split q2 h with h | h
        · exact absurd h (infix_short (by simpa using a2))
        · rcases infix_split q1 h with h | h
          · exact absurd h q6
          · exact absurd h q8
  · intro h
    rcases infix_split hc h with h | h
    · exact h.trans ⟨['b', '\''], _, by simp; rfl⟩
    · rcases infix_split (a := []) q3 h with h | h
      · exact absurd h q8
      · exact absurd h q8

theorem labelOf_byte (t : Str) (c x y : Char) (ht : ∀ c ∈ t, PlainChar c ∨ c = ':') (h1 : 127 ≤ c.toNat)
    (hx : "0123456789abcdef".toList[c.toNat / 16]? = some x) (hy : "0123456789abcdef".toList[c.toNat % 16]? = some y)
    (key : Str) : LabelOf (t ++ [c, '\n']) key → LabelOf (repr (t ++ [c, '\n'])) key := by
  rintro ⟨a, p, b, e1, e2, e3, e4⟩
  refine ⟨a, p, b, e1, e2, (label_byte t c x y ht h1 hx hy p (by rw [e1]; simp)).mpr e3, fun q hq hin => ?_⟩
  exact e4 q hq ((label_byte t c x y ht h1 hx hy q (by rw [e1]; simp [hq])).mp hin)

theorem update_byte (m : Dict Str (Option Str)) (l val key : Str) (c x y : Char) (h : AfterColon l val [c, '\n'])
    (hk : LabelOf l key) (h1 : 127 ≤ c.toNat) (hx : "0123456789abcdef".toList[c.toNat / 16]? = some x)
    (hy : "0123456789abcdef".toList[c.toNat % 16]? = some y) :
    update m l = m.set key (some (val ++ ['\\', 'x', x, y])) := by
  obtain ⟨t, rfl, ht, pre, n, e1, hv, htr⟩ := entry_plain l val _ h
  have hk' : entryOf (repr (t ++ [c, '\n'])) = some key := (entryOf_iff _ _).mpr (labelOf_byte t c x y ht h1 hx hy key hk)
  have hd : ∀ z, z ∈ "0123456789abcdef".toList → z ≠ ':' ∧ z ≠ '\'' ∧ z ≠ '\\' := by decide
  have hx' := hd x (List.mem_of_getElem? hx)
  have hy' := hd y (List.mem_of_getElem? hy)
  have hval : value (repr (t ++ [c, '\n'])) = some (val ++ ['\\', 'x', x, y]) := by
    rw [repr_byte t c x y ht h1 hx hy, e1]
    have e2 : 'b' :: '\'' :: (pre ++ ':' :: (List.replicate n ' ' ++ val) ++ '\\' :: (['x', x, y] ++ '\\' :: (['n'] ++ '\'' :: []))) =
        ('b' :: '\'' :: pre) ++ ':' :: (List.replicate n ' ' ++ val ++ ['\\', 'x', x, y, '\\', 'n', '\'']) := by simp
    rw [e2]
    refine value_entry _ n val _ _ hv htr ?_ rfl ?_
    · simp [Ne.symm hx'.1, Ne.symm hy'.1]
    · have : dropNewline ['\\', 'x', x, y, '\\', 'n', '\''] = ['\\', 'x', x, y, '\''] := by
        have hs : ∀ s : Str, dropNewline ('\\' :: 'x' :: s) = '\\' :: dropNewline ('x' :: s) := fun s => by
          rw [dropNewline]; simp
        have hn : ∀ (z : Char) (s : Str), z ≠ '\\' → dropNewline (z :: s) = z :: dropNewline s := fun z s hz => by
          rw [dropNewline]; intro _ e; exact absurd e hz
        rw [hs, hn 'x' _ (by decide), hn x _ hx'.2.2, hn y _ hy'.2.2]
        rfl
      rw [this]
      simp [hx'.2.1, hy'.2.1]
  unfold update
  rw [hk', hval]

/-! ### Metadata of a file -/

theorem scan_after (lines : List Str) : ∀ (i : Nat) (b : Bool) (m : Dict Str (Option Str)) (r : Nat × Dict Str (Option Str)),
    scan i b true m lines = .ok r → r.2 = m := by
  induction lines with
  | nil => intro i b m r h; cases h
  | cons l lines ih =>
    intro i b m r h
    rw [scan] at h
    simp only [Bool.true_or, Bool.not_true, Bool.and_false, Bool.false_eq_true, if_false] at h
    split at h
    · cases h
    · split at h
      · cases h; rfl
      · exact ih _ _ _ _ h

theorem scan_body (body : List Str) (last : Str) (rest : List Str) (hb : ∀ l ∈ body, ¬"[End Summary]".toList <:+: l)
    (hl : "[End Summary]".toList <:+: last) (hl2 : ¬"[Summary]".toList <:+: last) (hh : ∀ l ∈ body ++ [last], ¬IsHeader l) :
    ∀ (i : Nat) (m : Dict Str (Option Str)) (r : Nat × Dict Str (Option Str)),
      scan i true false m (body ++ last :: rest) = .ok r → r.2 = body.foldl update m := by
  induction body with
  | nil =>
    intro i m r h
    rw [List.nil_append, scan] at h
    have h1 : containsSub "Cycle Number".toList last = false := by
      rw [← Bool.not_eq_true, header_iff]; exact hh last (by simp)
    have h2 : containsSub "[End Summary]".toList last = true := (containsSub_iff _ _).mpr hl
    have h3 : containsSub "[Summary]".toList last = false := by
      rw [← Bool.not_eq_true, containsSub_iff]; exact hl2
    simp only [h1, h2, h3, Bool.true_or, Bool.false_or, Bool.not_false, Bool.and_true, Bool.not_true, Bool.and_false,
      Bool.false_eq_true, if_false] at h
    split at h
    · cases h
    · exact scan_after _ _ _ _ _ h
  | cons l body ih =>
    intro i m r h
    rw [List.cons_append, scan] at h
    have h1 : containsSub "Cycle Number".toList l = false := by
      rw [← Bool.not_eq_true, header_iff]; exact hh l (by simp)
    have h2 : containsSub "[End Summary]".toList l = false := by
      rw [← Bool.not_eq_true, containsSub_iff]; exact hb l (List.mem_cons_self ..)
    simp only [h1, h2, Bool.true_or, Bool.false_or, Bool.not_false, Bool.and_true, Bool.and_false, if_true,
      Bool.false_eq_true, if_false] at h
    split at h
    · cases h
    · exact ih (fun l hl => hb l (List.mem_cons_of_mem _ hl)) (fun l hl => hh l (List.mem_cons_of_mem _ hl)) _ _ _ h

theorem scan_section (before : List Str) (first : Str) (tail : List Str)
    (hb : ∀ l ∈ before, ¬"[Summary]".toList <:+: l ∧ ¬"[End Summary]".toList <:+: l) (hf : "[Summary]".toList <:+: first)
    (hh : ∀ l ∈ before ++ [first], ¬IsHeader l) : ∀ (i : Nat) (m : Dict Str (Option Str)) (r : Nat × Dict Str (Option Str)),
      scan i false false m (before ++ first :: tail) = .ok r → ∃ j, scan j true false (update m first) tail = .ok r := by
  induction before with
  | nil =>
    intro i m r h
    rw [List.nil_append, scan] at h
    have h1 : containsSub "Cycle Number".toList first = false := by
      rw [← Bool.not_eq_true, header_iff]; exact hh first (by simp)
    have h2 : containsSub "[Summary]".toList first = true := (containsSub_iff _ _).mpr hf
    simp only [h1, h2, Bool.false_or, Bool.not_false, Bool.and_true, Bool.not_true, Bool.and_false, Bool.false_and, if_true,
      Bool.false_eq_true, if_false] at h
    split at h
    · cases h
    · exact ⟨_, h⟩
  | cons l before ih =>
    intro i m r h
    rw [List.cons_append, scan] at h
    have h1 : containsSub "Cycle Number".toList l = false := by
      rw [← Bool.not_eq_true, header_iff]; exact hh l (by simp)
    have h2 : containsSub "[End Summary]".toList l = false := by
      rw [← Bool.not_eq_true, containsSub_iff]; exact (hb l (List.mem_cons_self ..)).2
    have h3 : containsSub "[Summary]".toList l = false := by
      rw [← Bool.not_eq_true, containsSub_iff]; exact (hb l (List.mem_cons_self ..)).1
    simp only [h1, h2, h3, Bool.false_or, Bool.not_false, Bool.and_true, Bool.and_false, Bool.false_and,
      Bool.false_eq_true, if_false] at h
    split at h
    · cases h
    · exact ih (fun l hl => hb l (List.mem_cons_of_mem _ hl)) (fun l hl => hh l (List.mem_cons_of_mem _ hl)) _ _ _ h

theorem read_section (lines body : List Str) (m : Dict Str (Option Str)) (t : Table) (h : read lines = .ok (m, t))
    (hs : Section lines body) : ∃ first ∈ lines, "[Summary]".toList <:+: first ∧ m = body.foldl update (update start first) := by
  obtain ⟨before, first, last, rest, rfl, hb, hf, hbody, hl, hl2, hh⟩ := hs
  unfold read at h
  split at h
  · cases h
  · next hn m' hscan =>
    split at h
    · cases h
    · cases h
      obtain ⟨j, hj⟩ := scan_section before first (body ++ last :: rest) hb hf
        (fun l hl => hh l (by rcases List.mem_append.mp hl with h | h <;> simp at h ⊢ <;> tauto)) _ _ _ hscan
      exact ⟨first, by simp, hf, scan_body body last rest hbody hl hl2 (fun l hl => hh l (by
        rcases List.mem_append.mp hl with h | h <;> simp at h ⊢ <;> tauto)) _ _ _ hj⟩

theorem fold_other (b : List Str) (key : Str) (h : ∀ l ∈ b, Ordinary l ∧ ¬LabelOf l key) (m : Dict Str (Option Str)) :
    (b.foldl update m).get? key = m.get? key := by
  induction b generalizing m with
  | nil => rfl
  | cons l b ih =>
    rw [List.foldl_cons, ih (fun l hl => h l (List.mem_cons_of_mem _ hl)),
      update_other m l key (h l (List.mem_cons_self ..)).1 (h l (List.mem_cons_self ..)).2]

theorem entry_afterColon {l label val e : Str} (h : EntryLine l label val e) (hv : ':' ∉ val) : AfterColon l val e := by
  obtain ⟨n, rfl, h1, h2, h3⟩ := h
  refine ⟨label, n, rfl, fun c hc => .inl (h1 c hc), fun c hc => ?_, h3⟩
  rcases h2 c hc with h | rfl
  · exact h
  · exact absurd hc hv

theorem entry_ordinary {l label val : Str} (h : EntryLine l label val ['\n']) : Ordinary l := by
  obtain ⟨n, rfl, h1, h2, h3⟩ := h
  refine ⟨label ++ ':' :: (List.replicate n ' ' ++ val), by simp, ?_⟩
  intro c hc
  rcases List.mem_append.mp hc with hc | hc
  · exact .inl (h1 c hc)
  · rcases List.mem_cons.mp hc with rfl | hc
    · exact .inr rfl
    · rcases List.mem_append.mp hc with hc | hc
      · left; rw [(List.mem_replicate.mp hc).2]; unfold PlainChar; decide
      · exact h2 c hc

theorem filter_withoutBlanks (a : List Str) : WithoutBlanks a (a.filter (fun l => !blank l)) := by
  induction a with
  | nil => exact .nil
  | cons l a ih =>
    rw [List.filter_cons]
    cases h : blank l with
    | true => exact .skip ((blank_iff l).mp h) ih
    | false => exact .keep (by rw [← blank_iff, h]; simp) ih

end Beep.Novonix
