import Verif.Proof.JsonText

namespace Beep.Proof.JsonText

open Beep.JsonText Beep.Spec.JsonText

/-! ## What is written is read back -/

/-! ### Strings -/

theorem hexVal_hexDigit : ∀ d < 16, hexVal (hexDigit d) = some d := by decide

theorem hex4_uEscape {n : Nat} (h : n < 65536) :
    hex4 (hexDigit (n / 4096 % 16)) (hexDigit (n / 256 % 16)) (hexDigit (n / 16 % 16))
      (hexDigit (n % 16)) = some n := by
  rw [hex4, hexVal_hexDigit _ (by omega), hexVal_hexDigit _ (by omega),
    hexVal_hexDigit _ (by omega), hexVal_hexDigit _ (by omega)]
  simp only [Option.some.injEq]
  omega

theorem units_uEscape {n : Nat} (h : n < 65536) (t : Text) :
    units (uEscape n ++ t) = (units t).map fun (l, r) => (n :: l, r) := by
  simp only [uEscape, List.cons_append, List.nil_append]
  rw [units.eq_def]
  simp only [show ¬ ('\\' = '"') by decide, if_false, if_true, hex4_uEscape h]

/-- The 16-bit units of a character. -/
def utf16 (n : Nat) : List Nat :=
  if n < 0x10000 then [n]
  else [0xd800 + (n - 0x10000) / 1024 % 1024, 0xdc00 + (n - 0x10000) % 1024]

theorem char_toNat : ∀ n < 127, (Char.ofNat n).toNat = n := by decide +kernel

theorem char_facts (n : Nat) (h : n < 127) (h1 : n ≠ 0x22) (h2 : n ≠ 0x5c) :
    (Char.ofNat n).toNat = n ∧ Char.ofNat n ≠ '"' ∧ Char.ofNat n ≠ '\\' := by
  have := char_toNat n h
  refine ⟨this, ?_, ?_⟩
  · intro hc; rw [hc] at this; exact h1 this.symm
  · intro hc; rw [hc] at this; exact h2 this.symm

theorem units_simple (e : Char) (n : Nat) (he : unescape e = some n) (hu : e ≠ 'u') (t : Text) :
    units ('\\' :: e :: t) = (units t).map fun (l, r) => (n :: l, r) := by
  rw [units.eq_def]
  simp only [show ¬ ('\\' = '"') by decide, if_false, if_true, if_neg hu, he]

theorem units_escape (n : Nat) (t : Text) (h : n ≤ 0x10ffff) :
    units (escape n ++ t) = (units t).map fun (l, r) => (utf16 n ++ l, r) := by
  have h16 : n < 0x10000 → utf16 n = [n] := fun h => by rw [utf16, if_pos h]
  unfold escape
  split_ifs with h1 h2 h3 h4 h5 h6 h7 h8 h9
  · subst h1; exact units_simple _ _ (by decide) (by decide) t
  · subst h2; exact units_simple _ _ (by decide) (by decide) t
  · subst h3; exact units_simple _ _ (by decide) (by decide) t
  · subst h4; exact units_simple _ _ (by decide) (by decide) t
  · subst h5; exact units_simple _ _ (by decide) (by decide) t
  · subst h6; exact units_simple _ _ (by decide) (by decide) t
  · subst h7; exact units_simple _ _ (by decide) (by decide) t
  · obtain ⟨a, b, c⟩ := char_facts n (by omega) h1 h2
    rw [h16 (by omega)]
    simp only [List.cons_append, List.nil_append]
    rw [units.eq_def]
    simp only [if_neg b, if_neg c, a]
    rw [if_neg (by omega)]
  · rw [h16 h9, units_uEscape h9]
    rfl
  · rw [List.append_assoc, units_uEscape (by omega), units_uEscape (by omega), utf16, if_neg h9]
    cases units t <;> rfl

theorem units_dump (s : List Nat) (h : ∀ n ∈ s, n ≤ 0x10ffff) (t : Text) :
    units (s.flatMap escape ++ ('"' :: t)) = some (s.flatMap utf16, t) := by
  induction s with
  | nil => rw [List.flatMap_nil, List.nil_append, units.eq_def]; simp
  | cons n s ih =>
    rw [List.flatMap_cons, List.append_assoc, units_escape _ _ (h n (by simp)),
      ih (fun m hm => h m (by simp [hm])), List.flatMap_cons]
    rfl

theorem joinPairs_single {n : Nat} (h : Unicode n) (l : List Nat) :
    joinPairs (n :: l) = n :: joinPairs l := by
  match l with
  | [] => simp [joinPairs]
  | a :: l =>
    rw [joinPairs, if_neg]
    rintro ⟨h1, h2, -⟩
    rcases h with h | h <;> omega

theorem joinPairs_utf16 (s : List Nat) (h : ∀ n ∈ s, Unicode n) :
    joinPairs (s.flatMap utf16) = s := by
  induction s with
  | nil => rfl
  | cons n s ih =>
    have hn := h n (by simp)
    have ih := ih fun m hm => h m (by simp [hm])
    rw [List.flatMap_cons, utf16]
    split_ifs with h1
    · rw [List.cons_append, List.nil_append, joinPairs_single hn, ih]
    · have hn : n ≤ 0x10ffff := by rcases hn with h | h <;> omega
      simp only [List.cons_append, List.nil_append]
      have hlo : (n - 0x10000) / 1024 % 1024 = (n - 0x10000) / 1024 := Nat.mod_eq_of_lt (by omega)
      have hdm := Nat.div_add_mod (n - 0x10000) 1024
      have hlt := Nat.mod_lt (n - 0x10000) (show 1024 > 0 by omega)
      have hhi : (n - 0x10000) / 1024 < 1024 := by omega
      rw [hlo]
      generalize (n - 0x10000) / 1024 = a at *
      generalize (n - 0x10000) % 1024 = b at *
      rw [joinPairs, if_pos ⟨by omega, by omega, by omega, by omega⟩, ih]
      have : 0x10000 + (0xd800 + a - 0xd800) * 1024 + (0xdc00 + b - 0xdc00) = n := by omega
      rw [this]

theorem scanString_dump (s : List Nat) (h : ∀ n ∈ s, Unicode n) (t : Text) :
    scanString (s.flatMap escape ++ ('"' :: t)) = some (s, t) := by
  rw [scanString, units_dump s (fun n hn => by rcases h n hn with h | h <;> omega)]
  simp [joinPairs_utf16 s h]

theorem dumpStr_append (s : List Nat) (t : Text) :
    dumpStr s ++ t = '"' :: (s.flatMap escape ++ ('"' :: t)) := by
  simp [dumpStr]

/-! ### Numbers -/

theorem isDig_of {c : Char} (h : '0' ≤ c ∧ c ≤ '9') : isDig c = true := by
  have h1 : (48 : Nat) ≤ c.toNat := h.1
  have h2 : c.toNat ≤ 57 := h.2
  simp [isDig, h1, h2]

/-- The text does not go on with a digit. -/
def NoDig : Text → Prop
  | [] => True
  | c :: _ => isDig c = false

theorem span_digits {ds x : Text} (hd : ∀ c ∈ ds, '0' ≤ c ∧ c ≤ '9') (hx : NoDig x) :
    (ds ++ x).takeWhile isDig = ds ∧ (ds ++ x).dropWhile isDig = x := by
  induction ds with
  | nil =>
    match x with
    | [] => simp
    | c :: x => simp [NoDig] at hx; simp [hx]
  | cons d ds ih =>
    have := ih fun c hc => hd c (by simp [hc])
    simp [isDig_of (hd d (by simp)), this.1, this.2]

theorem free_noDig {x : Text} (h : Free x) : NoDig x := by
  rcases h with rfl | h
  · trivial
  · match x with
    | c :: x => exact h.1

theorem number_literal {lit rest : Text} (h : Numeral lit) (hr : Free rest) :
    number (lit ++ rest) = some (lit, rest) := by
  obtain ⟨sign, int, frac, exp, rfl, hsign, hint, hfrac, hexp⟩ := h
  have hexp' : expPart (exp ++ rest) = (exp, rest) := by
    rcases hexp with rfl | ⟨e, s, ds, rfl, he, hs, hd⟩
    · rcases hr with rfl | hr
      · rfl
      · exact expPart_free hr
    · have hne := hd.1
      have hsp := span_digits hd.2 (free_noDig hr)
      have hsg : expSign (s ++ (ds ++ rest)) = (s, ds ++ rest) := by
        rcases hs with rfl | rfl | rfl
        · match ds with
          | [] => exact absurd rfl hne
          | d :: ds =>
            have := isDig_of (hd.2 d (by simp))
            simp only [List.nil_append, List.cons_append, expSign]
            rw [if_neg]
            rintro (rfl | rfl) <;> simp [isDig] at this
        · simp [expSign]
        · simp [expSign]
      simp only [List.cons_append, List.append_assoc, expPart, hsg, hsp.1, hsp.2]
      rw [if_pos ⟨he, hne⟩]
  have hnd : NoDig (exp ++ rest) := by
    rcases hexp with rfl | ⟨e, s, ds, rfl, he, hs, hd⟩
    · exact free_noDig hr
    · rcases he with rfl | rfl <;> simp [NoDig, isDig]
  have hfrac' : fracPart (frac ++ (exp ++ rest)) = (frac, exp ++ rest) := by
    rcases hfrac with rfl | ⟨ds, rfl, hd⟩
    · rw [List.nil_append]
      have : ∀ c x, exp ++ rest = c :: x → c ≠ '.' := by
        intro c x hcx
        rcases hexp with rfl | ⟨e, s, ds, rfl, he, hs, hd⟩
        · rcases hr with rfl | hr
          · simp at hcx
          · rw [List.nil_append] at hcx; rw [hcx] at hr; exact hr.2.1
        · rw [List.cons_append] at hcx
          injection hcx with h1 _
          subst h1
          rcases he with rfl | rfl <;> decide
      match hx : exp ++ rest with
      | [] => rfl
      | c :: x =>
        rw [fracPart]
        rw [if_neg (fun h' => this c x hx h'.1)]
    · have hsp := span_digits hd.2 hnd
      simp only [List.cons_append, fracPart, hsp.1, hsp.2]
      rw [if_pos ⟨trivial, hd.1⟩]
  have hnd' : NoDig (frac ++ (exp ++ rest)) := by
    rcases hfrac with rfl | ⟨ds, rfl, hd⟩
    · exact hnd
    · simp [NoDig, isDig]
  have hint' : intPart (int ++ (frac ++ (exp ++ rest))) = some (int, frac ++ (exp ++ rest)) := by
    rcases hint with rfl | ⟨hd, h0⟩
    · simp [intPart]
    · match int with
      | [] => exact absurd rfl hd.1
      | d :: ds =>
        have hsp := span_digits (fun c hc => hd.2 c (by simp [hc]) : ∀ c ∈ ds, _) hnd'
        have h0 : d ≠ '0' := by simpa using h0
        simp [intPart, h0, isDig_of (hd.2 d (by simp)), hsp.1, hsp.2]
  have huns : unsigned (int ++ (frac ++ (exp ++ rest))) = some (int ++ (frac ++ exp), rest) := by
    simp only [unsigned, hint', hfrac', hexp']
  rcases hsign with rfl | rfl
  · simp only [List.nil_append, List.append_assoc]
    match int with
    | [] => rcases hint with h | h <;> simp [Digits] at h
    | d :: ds =>
      have hd : d ≠ '-' := by
        rintro rfl
        rcases hint with h | h
        · simp at h
        · have := isDig_of (h.1.2 '-' (by simp)); simp [isDig] at this
      simp only [List.cons_append] at huns ⊢
      rw [number, if_neg hd, huns]
  · simp only [List.cons_append, List.nil_append, List.append_assoc, number, huns]
    simp

theorem literal_head {lit : Text} (h : Numeral lit) :
    ∃ c t, lit = c :: t ∧ (c = '-' ∨ ('0' ≤ c ∧ c ≤ '9')) := by
  obtain ⟨sign, int, frac, exp, rfl, hsign, hint, -, -⟩ := h
  rcases hsign with rfl | rfl
  · match int with
    | [] => rcases hint with h | h <;> simp [Digits] at h
    | d :: ds =>
      refine ⟨d, _, rfl, .inr ?_⟩
      rcases hint with h | h
      · injection h with h1 _; subst h1; decide
      · exact h.1.2 d (by simp)
  · exact ⟨'-', _, rfl, .inl rfl⟩

/-! ### Values -/

theorem digit_or {c : Char} (h : c = '-' ∨ ('0' ≤ c ∧ c ≤ '9')) :
    isWs c = false ∧ c ≠ ']' ∧ c ≠ '"' ∧ c ≠ '{' ∧ c ≠ '[' ∧ c ≠ 'n' ∧ c ≠ 't' ∧ c ≠ 'f' ∧ c ≠ 'N' ∧
      c ≠ 'I' := by
  rcases h with rfl | ⟨h1, h2⟩
  · decide
  · have h1 : (48 : Nat) ≤ c.toNat := h1
    have h2 : c.toNat ≤ 57 := h2
    refine ⟨?_, ?_, ?_, ?_, ?_, ?_, ?_, ?_, ?_, ?_⟩
    · simp only [isWs, Bool.or_eq_false_iff, beq_eq_false_iff_ne]
      refine ⟨⟨⟨?_, ?_⟩, ?_⟩, ?_⟩ <;> rintro rfl <;> revert h1 h2 <;> decide
    all_goals rintro rfl; revert h1 h2; decide

theorem dumps_head (j : J) (h : Proper j) :
    ∃ c t, dumps j = c :: t ∧ isWs c = false ∧ c ≠ ']' := by
  match j with
  | .null | .bool true | .bool false | .nan | .inf false | .inf true | .arr [] | .arr (_ :: _)
  | .obj [] | .obj ((_, _) :: _) => exact ⟨_, _, by rw [dumps], by decide, by decide⟩
  | .str s => exact ⟨_, _, by rw [dumps, dumpStr], by decide, by decide⟩
  | .num lit =>
    obtain ⟨c, t, rfl, hc⟩ := literal_head (by simpa [Proper] using h)
    exact ⟨c, t, by rw [dumps], (digit_or hc).1, (digit_or hc).2.1⟩

theorem ws_dumps (j : J) (h : Proper j) (t : Text) : ws (dumps j ++ t) = dumps j ++ t := by
  obtain ⟨c, x, hx, hc, -⟩ := dumps_head j h
  rw [hx, List.cons_append, ws, List.dropWhile_cons_of_neg (by simp [hc])]

theorem ws_cons {c : Char} (h : isWs c = false) (t : Text) : ws (c :: t) = c :: t := by
  rw [ws, List.dropWhile_cons_of_neg (by simp [h])]

theorem ws_blank (t : Text) : ws (' ' :: t) = ws t := by
  rw [ws, List.dropWhile_cons_of_pos (by decide)]; rfl

mutual
theorem value_dumps (j : J) (h : Proper j) (n : Nat) (hn : (dumps j).length ≤ n) (rest : Text)
    (hr : NotNum j ∨ Free rest) : value n (dumps j ++ rest) = some (j, rest) := by
  match j, n with
  | j, 0 =>
    obtain ⟨c, t, hc, -⟩ := dumps_head j h
    rw [hc] at hn
    simp at hn
  | .null, n + 1 | .bool true, n + 1 | .bool false, n + 1 | .nan, n + 1 | .inf false, n + 1 =>
    simp [dumps, value, strip]
  | .inf true, n + 1 => simp [dumps, value, strip, number, unsigned, intPart, isDig]
  | .str s, n + 1 =>
    rw [dumps, dumpStr_append, value, if_pos rfl, scanString_dump s (by simpa [Proper] using h)]
    rfl
  | .num lit, n + 1 =>
    have h : Numeral lit := by simpa [Proper] using h
    have hl := number_literal h (hr.resolve_left id)
    obtain ⟨c, t, rfl, hc⟩ := literal_head h
    obtain ⟨-, -, h1, h2, h3, h4, h5, h6, h7, h8⟩ := digit_or hc
    rw [dumps]
    rw [List.cons_append] at hl ⊢
    rw [value]
    simp only [if_neg h1, if_neg h2, if_neg h3, if_neg h4, if_neg h5, if_neg h6, if_neg h7,
      if_neg h8, hl]
  | .arr [], n + 1 => simp [dumps, value, array, ws, isWs]
  | .obj [], n + 1 => simp [dumps, value, object, ws, isWs]
  | .arr (v :: l), n + 1 =>
    simp only [Proper, ProperElems] at h
    simp only [dumps, List.length_cons, List.length_append] at hn
    have hv := fun rest hr => value_dumps v h.1 n (by omega) rest hr
    have := elems_dumps l h.2 v n n rest (fun rest hr => hv rest (.inr hr)) (by omega)
      (by omega)
    obtain ⟨c, x, hx, hc, hc'⟩ := dumps_head v h.1
    simp only [dumps, List.cons_append, List.append_assoc]
    rw [value]
    simp only [show ¬ ('[' = '"') by decide, show ¬ ('[' = '{') by decide, if_false, if_true, array]
    rw [ws_dumps v h.1]
    rw [hx, List.cons_append] at this ⊢
    simp only [if_neg hc', this]
    rfl
  | .obj ((k, v) :: l), n + 1 =>
    simp only [Proper, ProperPairs] at h
    simp only [dumps, List.length_cons, List.length_append] at hn
    have hv := fun rest hr => value_dumps v h.2.1 n (by omega) rest hr
    have := members_dumps l h.2.2 k v n n rest h.1 (fun rest hr => hv rest (.inr hr)) h.2.1
      (by omega) (by omega)
    simp only [dumps, List.cons_append, List.append_assoc]
    rw [value]
    simp only [show ¬ ('{' = '"') by decide, if_false, if_true, object]
    rw [dumpStr_append] at this ⊢
    rw [ws_cons (by decide)]
    simp only [show ¬ ('"' = '}') by decide, if_false, this]
    rfl

theorem elems_dumps (l : List J) (h : ProperElems l) (v : J) (m n : Nat) (rest : Text)
    (hv : ∀ rest, Free rest → value m (dumps v ++ rest) = some (v, rest))
    (hm : (dumpsElems l).length ≤ m) (hn : (dumpsElems l).length ≤ n) :
    elems (value m) n (dumps v ++ (dumpsElems l ++ rest)) = some (v :: l, rest) := by
  match l, n with
  | [], 0 => simp [dumpsElems] at hn
  | _ :: _, 0 => simp [dumpsElems] at hn
  | [], n + 1 =>
    rw [elems, hv _ (.inr (by simp [dumpsElems, Stops, isDig]))]
    simp only [dumpsElems, List.cons_append, List.nil_append]
    rw [ws_cons (by decide)]
    simp
  | w :: l, n + 1 =>
    simp only [ProperElems] at h
    rw [elems, hv _ (.inr (by simp [dumpsElems, Stops, isDig]))]
    simp only [dumpsElems, List.length_cons, List.length_append] at hm hn
    simp only [dumpsElems, List.cons_append, List.append_assoc]
    rw [ws_cons (by decide)]
    simp only [show ¬ (',' = ']') by decide, if_false, if_true]
    rw [ws_blank, ws_dumps w h.1]
    have hw := fun rest hr => value_dumps w h.1 m (by omega) rest hr
    rw [elems_dumps l h.2 w m n rest (fun rest hr => hw rest (.inr hr)) (by omega) (by omega)]
    rfl

theorem members_dumps (l : List (List Nat × J)) (h : ProperPairs l) (k : List Nat) (v : J)
    (m n : Nat) (rest : Text) (hk : ∀ c ∈ k, Unicode c)
    (hv : ∀ rest, Free rest → value m (dumps v ++ rest) = some (v, rest)) (hp : Proper v)
    (hm : (dumpsPairs l).length ≤ m) (hn : (dumpsPairs l).length ≤ n) :
    members (value m) n (dumpStr k ++ (':' :: ' ' :: (dumps v ++ (dumpsPairs l ++ rest))))
      = some ((k, v) :: l, rest) := by
  match l, n with
  | [], 0 => simp [dumpsPairs] at hn
  | (_, _) :: _, 0 => simp [dumpsPairs] at hn
  | [], n + 1 =>
    rw [dumpStr_append, members, if_pos rfl, scanString_dump k hk]
    simp only
    rw [ws_cons (by decide)]
    simp only [if_true]
    rw [ws_blank, ws_dumps v hp, hv _ (.inr (by simp [dumpsPairs, Stops, isDig]))]
    simp only [dumpsPairs, List.cons_append, List.nil_append]
    rw [ws_cons (by decide)]
    simp
  | (k', w) :: l, n + 1 =>
    simp only [ProperPairs] at h
    rw [dumpStr_append, members, if_pos rfl, scanString_dump k hk]
    simp only
    rw [ws_cons (by decide)]
    simp only [if_true]
    rw [ws_blank, ws_dumps v hp, hv _ (.inr (by simp [dumpsPairs, Stops, isDig]))]
    simp only [dumpsPairs, List.length_cons, List.length_append] at hm hn
    simp only [dumpsPairs, List.cons_append, List.append_assoc]
    rw [ws_cons (by decide)]
    simp only [show ¬ (',' = '}') by decide, if_false, if_true]
    have hw := fun rest hr => value_dumps w h.2.1 m (by omega) rest hr
    have := members_dumps l h.2.2 k' w m n rest h.1 (fun rest hr => hw rest (.inr hr)) h.2.1
      (by omega) (by omega)
    rw [dumpStr_append] at this ⊢
    rw [ws_blank, ws_cons (by decide), this]
    rfl
end

end Beep.Proof.JsonText
