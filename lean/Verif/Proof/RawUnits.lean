import Verif.Proof.CastsRead
import Verif.Proof.Text
import Verif.Spec.RawUnits
/-
Lemmas for the units of raw columns.
-/
namespace Beep.RawUnits
open Beep Text Casts Beep.Spec.Casts Beep.Spec.RawUnits

/-! ### Clock times -/

theorem digits_eq (s : Str) (h : ∀ c ∈ s, '0' ≤ c ∧ c ≤ '9') (n : Nat) :
    digits n s = some (s.foldl (fun a c => 10 * a + (c.toNat - '0'.toNat)) n) := by
  induction s generalizing n with
  | nil => rfl
  | cons c s ih =>
    rw [digits, if_pos (h c (List.mem_cons_self ..)), ih (fun c hc => h c (List.mem_cons_of_mem _ hc))]
    rfl

theorem digit_code {c : Char} (h : '0' ≤ c ∧ c ≤ '9') : 48 ≤ c.toNat ∧ c.toNat ≤ 57 := h

theorem digit_not_ws {c : Char} (h : '0' ≤ c ∧ c ≤ '9') : isWs c = false := by
  have := digit_code h
  unfold isWs
  rw [decide_eq_false_iff_not]
  intro hm
  simp only [List.mem_cons, List.not_mem_nil, or_false] at hm
  omega

theorem digit_ne {c d : Char} (h : '0' ≤ c ∧ c ≤ '9') (hd : d.toNat < 48 ∨ 57 < d.toNat) : c ≠ d := by
  rintro rfl
  have := digit_code h
  omega

theorem numeral_chars {s : Str} {q : Rat} (h : Numeral s q) : ∀ c ∈ s, ('0' ≤ c ∧ c ≤ '9') ∨ c = '.' := by
  rcases h with ⟨n, h, _⟩ | ⟨a, b, n, m, rfl, h1, h2, _⟩
  · exact fun c hc => .inl (h.2.1 c hc)
  · intro c hc
    rcases List.mem_append.mp hc with hc | hc
    · exact .inl (h1.2.1 c hc)
    · rcases List.mem_cons.mp hc with rfl | hc
      · exact .inr rfl
      · exact .inl (h2.2.1 c hc)

theorem numeral_strip {s : Str} {q : Rat} (h : Numeral s q) : strip s = s := by
  have hw : ∀ c ∈ s, isWs c = false := by
    intro c hc
    rcases numeral_chars h c hc with h | rfl
    · exact digit_not_ws h
    · decide
  exact strip_id s (fun c hc => hw c (List.mem_of_head? hc)) (fun c hc => hw c (List.mem_of_getLast? hc))

theorem numeral_colon {s : Str} {q : Rat} (h : Numeral s q) : ':' ∉ s := by
  intro hc
  rcases numeral_chars h _ hc with h | h
  · exact digit_ne h (.inr (by decide)) rfl
  · revert h; decide

theorem split1_none (c : Char) (s : Str) (h : c ∉ s) : split1 c s = (s, none) := by
  induction s with
  | nil => rfl
  | cons d s ih =>
    have hd : d ≠ c := by rintro rfl; exact h (List.mem_cons_self ..)
    rw [split1, if_neg hd, ih (fun hm => h (List.mem_cons_of_mem _ hm))]

theorem decimal_eq {s : Str} {q : Rat} (h : Numeral s q) : decimal s = .ok q := by
  unfold decimal
  rw [numeral_strip h]
  rcases h with ⟨n, h, rfl⟩ | ⟨a, b, n, m, rfl, h1, h2, rfl⟩
  · have hdot : '.' ∉ s := fun hc => digit_ne (h.2.1 _ hc) (.inl (by decide)) rfl
    rw [split1_none '.' s hdot]
    cases s with
    | nil => exact absurd rfl h.1
    | cons c s => simp only [digits_eq (c :: s) h.2.1 0, ← h.2.2]
  · have hdot : '.' ∉ a := fun hc => digit_ne (h1.2.1 _ hc) (.inl (by decide)) rfl
    rw [split1_append '.' a b hdot]
    cases a with
    | nil => exact absurd rfl h1.1
    | cons c a => simp only [digits_eq (c :: a) h1.2.1 0, ← h1.2.2, digits_eq b h2.2.1 0, ← h2.2.2]

theorem stepTime_fields (pre : List Str) (a b c : Str) (H M C : Rat) (ha : Numeral a H) (hb : Numeral b M) (hc : Numeral c C)
    (s : Str) (hs : splitC ':' s = pre ++ [a, b, c]) : stepTime s = .ok (3600 * H + 60 * M + C) := by
  unfold stepTime
  rw [hs, List.reverse_append]
  simp only [List.reverse_cons, List.reverse_nil, List.nil_append, List.cons_append, decimal_eq ha, decimal_eq hb, decimal_eq hc]

theorem clock_split {a b c : Str} (ha : ':' ∉ a) (hb : ':' ∉ b) (hc : ':' ∉ c) :
    splitC ':' (a ++ ':' :: (b ++ ':' :: c)) = [a, b, c] := by
  rw [splitC_append ':' a _ ha, splitC_append ':' b _ hb, splitC_none ':' c hc]

theorem stepTime_clock {s : Str} {t : Rat} (h : Clock s t) : stepTime s = .ok t := by
  obtain ⟨a, b, c, H, M, C, rfl, ha, hb, hc, rfl⟩ := h
  exact stepTime_fields [] a b c H M C ha hb hc _ (clock_split (numeral_colon ha) (numeral_colon hb) (numeral_colon hc))

/-! ### Cells -/

theorem mapCells_ok {fn : Cell → Except Err Cell} {xs ys : List Cell} (h : mapCells fn xs = .ok ys) :
    List.Forall₂ (fun x y => fn x = .ok y) xs ys := by
  induction xs generalizing ys with
  | nil => cases h; exact .nil
  | cons x xs ih =>
    rw [mapCells] at h
    split at h
    · cases h
    · next hx =>
      split at h
      · cases h
      · next hxs => cases h; exact .cons hx (ih hxs)

theorem timeCell_ok {x y : Cell} (h : timeCell x = .ok y) :
    ∃ s, x = .text s ∧ ∃ t, y = .num t ∧ ∀ t', Clock s.toList t' → t = t' := by
  cases x with
  | text s =>
    rw [timeCell] at h
    split at h
    · next t ht =>
      cases h
      refine ⟨s, rfl, t, rfl, fun t' hc => ?_⟩
      rw [stepTime_clock hc] at ht
      cases ht; rfl
    · cases h
  | nan => cases h
  | num q => cases h
  | inf b => cases h

theorem milliCell_ok {x y : Cell} (h : milliCell x = .ok y) :
    (∀ s, x ≠ .text s) ∧ (∀ q, x = .num q → y = .num (q / 1000)) ∧ ((∀ q, x ≠ .num q) → y = x) := by
  cases x with
  | text s => cases h
  | nan => cases h; exact ⟨by simp, by simp, by simp⟩
  | inf b => cases h; exact ⟨by simp, by simp, by simp⟩
  | num q => cases h; exact ⟨by simp, by rintro q ⟨⟩; rfl, fun h => absurd rfl (h q)⟩

theorem length_fillForward (last : Cell) (cs : List Cell) : (fillForward last cs).length = cs.length := by
  induction cs generalizing last with
  | nil => rfl
  | cons c cs ih => cases c <;> simp [fillForward, ih]

theorem fillForward_spec (last : Cell) (cs : List Cell) (i : Nat) (y : Cell) (h : (fillForward last cs)[i]? = some y) :
    (∃ j, j ≤ i ∧ cs[j]? = some y ∧ y ≠ .nan ∧ ∀ k, j < k → k ≤ i → cs[k]? = some .nan) ∨
    ((∀ k, k ≤ i → cs[k]? = some .nan) ∧ y = last) := by
  induction cs generalizing last i with
  | nil => simp [fillForward] at h
  | cons c cs ih =>
    by_cases hc : c = .nan
    · subst hc
      rw [fillForward] at h
      cases i with
      | zero =>
        right
        simp at h
        exact ⟨fun k hk => by rw [Nat.le_zero.mp hk]; rfl, h.symm⟩
      | succ i =>
        rw [List.getElem?_cons_succ] at h
        rcases ih last i h with ⟨j, h1, h2, h3, h4⟩ | ⟨h1, h2⟩
        · left
          refine ⟨j + 1, by omega, by simpa using h2, h3, fun k hk1 hk2 => ?_⟩
          obtain ⟨k, rfl⟩ : ∃ k', k = k' + 1 := ⟨k - 1, by omega⟩
          rw [List.getElem?_cons_succ]; exact h4 k (by omega) (by omega)
        · right
          refine ⟨fun k hk => ?_, h2⟩
          cases k with
          | zero => rfl
          | succ k => rw [List.getElem?_cons_succ]; exact h1 k (by omega)
    · have e : fillForward last (c :: cs) = c :: fillForward c cs := by
        cases c with
        | nan => exact absurd rfl hc
        | num q => rfl
        | inf b => rfl
        | text s => rfl
      rw [e] at h
      left
      cases i with
      | zero =>
        simp at h
        subst h
        exact ⟨0, le_refl _, rfl, hc, fun k h1 h2 => by omega⟩
      | succ i =>
        rw [List.getElem?_cons_succ] at h
        rcases ih c i h with ⟨j, h1, h2, h3, h4⟩ | ⟨h1, h2⟩
        · refine ⟨j + 1, by omega, by simpa using h2, h3, fun k hk1 hk2 => ?_⟩
          obtain ⟨k, rfl⟩ : ∃ k', k = k' + 1 := ⟨k - 1, by omega⟩
          rw [List.getElem?_cons_succ]; exact h4 k (by omega) (by omega)
        · refine ⟨0, by omega, by rw [h2]; rfl, by rw [h2]; exact hc, fun k hk1 hk2 => ?_⟩
          obtain ⟨k, rfl⟩ : ∃ k', k = k' + 1 := ⟨k - 1, by omega⟩
          rw [List.getElem?_cons_succ]; exact h1 k (by omega)

theorem fillForward_keep (last : Cell) (cs : List Cell) (i : Nat) (c : Cell) (h : cs[i]? = some c) (hc : c ≠ .nan) :
    (fillForward last cs)[i]? = some c := by
  have hl : i < (fillForward last cs).length := by
    rw [length_fillForward]; exact (List.getElem?_eq_some_iff.mp h).1
  have hy := List.getElem?_eq_getElem hl
  rcases fillForward_spec last cs i _ hy with ⟨j, h1, h2, _, h4⟩ | ⟨h1, _⟩
  · rcases Nat.lt_or_eq_of_le h1 with hlt | rfl
    · have := h4 i hlt (le_refl _)
      rw [h] at this; cases this; exact absurd rfl hc
    · rw [hy, ← h2, h]
  · have := h1 i (le_refl _)
    rw [h] at this; cases this; exact absurd rfl hc

theorem dash_present (x : Cell) : dash x = .nan ↔ ¬Present x := by
  unfold dash Present
  split
  · next h => subst h; simp
  · next h => constructor
              · intro e; simp [e]
              · intro hn
                by_contra hx
                exact hn ⟨hx, h⟩

theorem dash_keep {x y : Cell} (h : dash x = y) (hy : y ≠ .nan) : x = y ∧ Present y := by
  have hp : Present x := by
    by_contra hn
    exact hy (h ▸ (dash_present x).mpr hn)
  unfold dash at h
  rw [if_neg hp.2] at h
  exact ⟨h, h ▸ hp⟩

theorem resistances_filled {xs ys : List Cell} (h : resistances xs = .ok ys) : Filled xs ys := by
  unfold resistances at h
  cases h
  have hlen : (fillBack (fillForward .nan (xs.map dash))).length = xs.length := by
    unfold fillBack
    rw [List.length_reverse, length_fillForward, List.length_reverse, length_fillForward, List.length_map]
  refine ⟨hlen, ?_⟩
  intro i y hy
  have hi : i < xs.length := by rw [← hlen]; exact (List.getElem?_eq_some_iff.mp hy).1
  generalize hz : fillForward .nan (xs.map dash) = zs at hy
  have hzl : zs.length = xs.length := by rw [← hz, length_fillForward, List.length_map]
  -- values of `zs` in terms of `xs`
  have gapAt : ∀ k : Nat, (xs.map dash)[k]? = some Cell.nan → ∀ x, xs[k]? = some x → ¬Present x := by
    intro k hk x hx
    rw [List.getElem?_map, hx] at hk
    simp at hk
    exact (dash_present x).mp hk
  have nanAt : ∀ k : Nat, zs[k]? = some Cell.nan → (xs.map dash)[k]? = some .nan := by
    intro k hk
    have hkl : k < (xs.map dash).length := by
      rw [List.length_map, ← hzl]; exact (List.getElem?_eq_some_iff.mp hk).1
    rw [List.getElem?_eq_getElem hkl]
    by_contra hne
    have := fillForward_keep .nan (xs.map dash) k _ (List.getElem?_eq_getElem hkl) (fun e => hne (by rw [e]))
    rw [hz, hk] at this
    exact hne this.symm
  have keepAt : ∀ (j : Nat) (c : Cell), (xs.map dash)[j]? = some c → c ≠ .nan → xs[j]? = some c ∧ Present c := by
    intro j c hj hc
    rw [List.getElem?_map, Option.map_eq_some_iff] at hj
    obtain ⟨x, hx, e⟩ := hj
    obtain ⟨e2, hp⟩ := dash_keep e hc
    exact ⟨by rw [hx, e2], hp⟩
  unfold fillBack at hy
  have hl2 : (fillForward .nan zs.reverse).length = xs.length := by rw [length_fillForward, List.length_reverse, hzl]
  rw [List.getElem?_reverse (by omega), hl2] at hy
  have rev : ∀ k : Nat, k < xs.length → zs.reverse[xs.length - 1 - k]? = zs[k]? := by
    intro k hk
    rw [List.getElem?_reverse (by omega), hzl]
    congr 1; omega
  rcases fillForward_spec .nan zs.reverse _ y hy with ⟨j', h1, h2, h3, h4⟩ | ⟨h1, h2⟩
  · obtain ⟨j, hj, rfl⟩ : ∃ j, j < xs.length ∧ j' = xs.length - 1 - j := ⟨xs.length - 1 - j', by omega, by omega⟩
    rw [rev j hj] at h2
    have between : ∀ k, i ≤ k → k < j → zs[k]? = some .nan := by
      intro k hk1 hk2
      have := h4 (xs.length - 1 - k) (by omega) (by omega)
      rw [rev k (by omega)] at this
      exact this
    rcases Nat.lt_or_ge i j with hij | hij
    · -- the value comes from below
      have hni := between i (le_refl _) hij
      have hallGap : ∀ k, k ≤ i → (xs.map dash)[k]? = some .nan := by
        have := hni
        rw [← hz] at this
        rcases fillForward_spec .nan (xs.map dash) i _ this with ⟨_, _, _, h, _⟩ | ⟨h, _⟩
        · exact absurd rfl h
        · exact h
      have gaps : ∀ k, k < j → (xs.map dash)[k]? = some .nan := by
        intro k hk
        rcases Nat.lt_or_ge i k with hik | hik
        · exact nanAt k (between k (by omega) hk)
        · exact hallGap k hik
      rw [← hz] at h2
      rcases fillForward_spec .nan (xs.map dash) j y h2 with ⟨j2, g1, g2, _, _⟩ | ⟨_, g⟩
      · have e : j2 = j := by
          by_contra hne
          have := gaps j2 (by omega)
          rw [g2] at this; cases this; exact h3 rfl
        subst e
        obtain ⟨k1, k2⟩ := keepAt j2 y g2 h3
        exact .inr (.inl ⟨j2, hij, k1, k2, fun k hk => gapAt k (gaps k hk)⟩)
      · exact absurd g h3
    · have e : j = i := by omega
      subst e
      rw [← hz] at h2
      rcases fillForward_spec .nan (xs.map dash) j y h2 with ⟨j2, g1, g2, _, g4⟩ | ⟨_, g⟩
      · obtain ⟨k1, k2⟩ := keepAt j2 y g2 h3
        exact .inl ⟨j2, g1, k1, k2, fun k hk1 hk2 => gapAt k (g4 k hk1 hk2)⟩
      · exact absurd g h3
  · refine .inr (.inr ⟨?_, h2⟩)
    have after : ∀ k, i ≤ k → k < xs.length → zs[k]? = some .nan := by
      intro k hk1 hk2
      have := h1 (xs.length - 1 - k) (by omega)
      rw [rev k hk2] at this
      exact this
    have hallGap : ∀ k, k ≤ i → (xs.map dash)[k]? = some .nan := by
      have := after i (le_refl _) hi
      rw [← hz] at this
      rcases fillForward_spec .nan (xs.map dash) i _ this with ⟨_, _, _, h, _⟩ | ⟨h, _⟩
      · exact absurd rfl h
      · exact h
    intro x hx
    obtain ⟨k, hk, rfl⟩ := List.mem_iff_getElem.mp hx
    rcases Nat.lt_or_ge i k with hik | hik
    · exact gapAt k (nanAt k (after k (by omega) hk)) _ (List.getElem?_eq_getElem hk)
    · exact gapAt k (hallGap k hik) _ (List.getElem?_eq_getElem hk)

/-! ### Columns -/

theorem convert_go_ok {n : String} {fn : List Cell → Except Err (List Cell)} {f g : Frame} (h : convert.go n fn f = .ok g) :
    List.Forall₂ (fun a b => b.1 = a.1 ∧ (a.1 = n → fn a.2 = .ok b.2) ∧ (a.1 ≠ n → b.2 = a.2)) f g := by
  induction f generalizing g with
  | nil => cases h; exact .nil
  | cons p f ih =>
    rw [convert.go] at h
    split at h
    · cases h
    · next cells hc =>
      split at h
      · cases h
      · next g' hg =>
        cases h
        refine .cons ⟨rfl, fun e => ?_, fun e => ?_⟩ (ih hg)
        · rw [if_pos e] at hc; exact hc
        · rw [if_neg e] at hc; cases hc; rfl

theorem convert_ok {n : String} {fn : List Cell → Except Err (List Cell)} {f g : Frame} (h : convert n fn f = .ok g) :
    List.Forall₂ (fun a b => b.1 = a.1 ∧ (a.1 = n → fn a.2 = .ok b.2) ∧ (a.1 ≠ n → b.2 = a.2)) f g := by
  unfold convert at h
  split at h
  · exact convert_go_ok h
  · cases h

theorem convertAll_ok {cs : List (String × (List Cell → Except Err (List Cell)))} (hn : (cs.map Prod.fst).Nodup) {f g : Frame}
    (h : convertAll cs f = .ok g) :
    List.Forall₂ (fun a b => b.1 = a.1 ∧ (∀ fn, (a.1, fn) ∈ cs → fn a.2 = .ok b.2) ∧ (a.1 ∉ cs.map Prod.fst → b.2 = a.2)) f g := by
  induction cs generalizing f with
  | nil =>
    cases h
    exact List.forall₂_same.mpr (fun p _ => ⟨rfl, (fun fn h => by cases h), fun _ => rfl⟩)
  | cons c cs ih =>
    obtain ⟨n, fn⟩ := c
    rw [convertAll] at h
    rw [List.map_cons, List.nodup_cons] at hn
    split at h
    · cases h
    · next f' hf =>
      refine (forall₂_trans (convert_ok hf) (ih hn.2 h)).imp ?_
      rintro a b ⟨q, ⟨h1, h2, h3⟩, k1, k2, k3⟩
      refine ⟨k1.trans h1, ?_, ?_⟩
      · intro fn' hm
        rcases List.mem_cons.mp hm with e | hm
        · have e1 : a.1 = n := congrArg Prod.fst e
          have e2 : fn' = fn := congrArg Prod.snd e
          rw [e2, k3 (by rw [h1, e1]; exact hn.1)]
          exact h2 e1
        · have hne : a.1 ≠ n := by
            rintro e
            have m := List.mem_map_of_mem (f := Prod.fst) hm
            exact hn.1 (by rw [← e]; exact m)
          have := k2 fn' (by rw [h1]; exact hm)
          rw [h3 hne] at this
          exact this
      · intro hm
        rw [List.map_cons, List.mem_cons, not_or] at hm
        rw [k3 (by rw [h1]; exact hm.2), h3 hm.1]

theorem convertAll_units {f g : Frame} (h : convertAll conversions f = .ok g) :
    List.Forall₂ (fun a b => b.1 = a.1 ∧ InUnits a.1 a.2 b.2) f g := by
  refine (convertAll_ok (by decide +kernel) h).imp ?_
  rintro a b ⟨h1, h2, h3⟩
  refine ⟨h1, ?_, ?_, ?_, ?_⟩
  · intro e
    refine (mapCells_ok (h2 (mapCells timeCell) (by rw [e]; exact List.mem_cons_self ..))).imp (fun x y h => timeCell_ok h)
  · intro hm
    have hin : (a.1, mapCells milliCell) ∈ conversions := by
      unfold milli at hm
      unfold conversions
      simp only [List.mem_cons, List.not_mem_nil, or_false] at hm
      rcases hm with e | e | e | e | e <;> rw [e] <;> simp
    exact (mapCells_ok (h2 _ hin)).imp (fun x y h => milliCell_ok h)
  · intro e
    exact resistances_filled (h2 resistances (by rw [e]; unfold conversions; simp))
  · intro n1 n2 n3
    apply h3
    unfold milli at n2
    simp only [conversions, List.map_cons, List.map_nil, List.mem_cons, List.not_mem_nil, or_false, not_or] at n2 ⊢
    exact ⟨n1, n2.1, n2.2.1, n2.2.2.1, n2.2.2.2.1, n2.2.2.2.2, n3⟩

theorem assign_other {n : String} {cells : List Cell} {f : Frame} {p : String × List Cell} (hp : p ∈ f) (hn : p.1 ≠ n) :
    p ∈ assign n cells f := by
  unfold assign
  split
  · refine List.mem_map.mpr ⟨p, hp, by rw [if_neg hn]⟩
  · exact List.mem_append_left _ hp

theorem assign_self (n : String) (cells : List Cell) (f : Frame) : (n, cells) ∈ assign n cells f := by
  unfold assign
  split
  · next h =>
    obtain ⟨p, hp, e⟩ := List.mem_map.mp (List.contains_iff_mem.mp h)
    exact List.mem_map.mpr ⟨p, hp, by rw [if_pos e]⟩
  · simp

theorem newareData_ok {f g : Frame} (h : newareData f = .ok g) : ∃ k ts, convertAll conversions f = .ok k ∧
    column k "Time(h:min:s.ms)" = .ok ts ∧
    newareTable (assign "test_time" ((Parsers.testTime (numbers ts)).map Cell.num) k) = .ok g := by
  unfold newareData at h
  split at h
  · cases h
  · next k hk =>
    split at h
    · cases h
    · next ts hts => exact ⟨k, ts, hk, hts, h⟩

theorem column_mem {f : Frame} {n : String} {cells : List Cell} (h : column f n = .ok cells) : (n, cells) ∈ f := by
  unfold column at h
  split at h
  · next p hp =>
    cases h
    have := List.find?_some hp
    simp at this
    rw [← this]
    exact List.mem_of_find?_eq_some hp
  · cases h

theorem unique_column {f : Frame} (hn : (names f).Nodup) {n : String} {a b : List Cell} (ha : (n, a) ∈ f) (hb : (n, b) ∈ f) : a = b := by
  induction f with
  | nil => cases ha
  | cons p f ih =>
    unfold names at hn
    rw [List.map_cons, List.nodup_cons] at hn
    rcases List.mem_cons.mp ha with ea | ha' <;> rcases List.mem_cons.mp hb with eb | hb'
    · have := ea.trans eb.symm; exact congrArg Prod.snd this
    · subst ea; exact absurd (List.mem_map_of_mem (f := Prod.fst) hb') hn.1
    · subst eb; exact absurd (List.mem_map_of_mem (f := Prod.fst) ha') hn.1
    · exact ih hn.2 ha' hb'

theorem numbers_of {xs : List Cell} {ts : List Cell} {R : Cell → Rat → Prop}
    (h : List.Forall₂ (fun x y => ∃ t, y = Cell.num t ∧ R x t) xs ts) : List.Forall₂ R xs (numbers ts) := by
  induction h with
  | nil => exact .nil
  | cons h1 _ ih =>
    obtain ⟨t, rfl, hr⟩ := h1
    exact .cons hr ih

theorem neware_asRead : HasKind newareKinds "test_time" .asRead :=
  ⟨["test_time", "Capacitance_Chg(mAh)", "Capacitance_DChg(mAh)", "Engy_Chg(mWh)", "Engy_DChg(mWh)"], by decide +kernel, by decide +kernel⟩

theorem asRead_nums {qs : List Rat} {ys : List Cell} (h : List.Forall₂ (Stored .asRead) (qs.map Cell.num) ys) : ys = qs.map Cell.num := by
  induction qs generalizing ys with
  | nil => cases h; rfl
  | cons q qs ih =>
    cases h with
    | cons h1 h2 =>
      rw [ih h2]
      rw [show _ = Cell.num q from h1]
      rfl

/-! ### Novonix -/

theorem novonix_agree : Agree (novonixTypes ++ novonixHeat.map (fun p => (p.1, DType.float64))) novonixKinds where
  nodup := by decide +kernel
  sized := by decide +kernel
  kind := by decide +kernel
  of := by decide +kernel
  all := by decide +kernel

theorem float64_id {xs ys : List Cell} (h : castColumn .float64 xs = .ok ys) : ys = xs := by
  induction xs generalizing ys with
  | nil => cases h; rfl
  | cons x xs ih =>
    rw [castColumn] at h
    split at h
    · cases h
    · next x' hx =>
      split at h
      · cases h
      · next xs' hxs =>
        cases h
        rw [ih hxs]
        cases x <;> cases hx <;> rfl

theorem novonix_keys (n : String) : n ∈ novonixNames.map Prod.fst ↔ n ∈ novonixTypes.map Prod.fst := by
  constructor
  · intro h; exact (by decide +kernel : ∀ n ∈ novonixNames.map Prod.fst, n ∈ novonixTypes.map Prod.fst) n h
  · intro h; exact (by decide +kernel : ∀ n ∈ novonixTypes.map Prod.fst, n ∈ novonixNames.map Prod.fst) n h

theorem newName_other {t : List (String × String)} {n : String} (h : n ∉ t.map Prod.fst) : newName t n = n := by
  unfold newName
  rw [List.find?_eq_none.mpr]
  intro p hp
  simp only [decide_eq_true_eq]
  rintro rfl
  exact h (List.mem_map_of_mem hp)

theorem novonix_targets : ∀ n ∈ novonixNames.map Prod.fst,
    newName novonixNames n ∉ novonixHeat.map Prod.fst ∧ (n, newName novonixNames n) ∈ novonix := by decide +kernel

theorem heat_targets : ∀ n ∈ novonixHeat.map Prod.fst, (n, newName novonixHeat n) ∈ novonix ∧ n ∉ novonixNames.map Prod.fst := by
  decide +kernel

theorem novonix_published (n : String) : Published novonix n (newName novonixHeat (newName novonixNames n)) := by
  by_cases h1 : n ∈ novonixNames.map Prod.fst
  · obtain ⟨h2, h3⟩ := novonix_targets n h1
    rw [newName_other h2]
    exact .inl h3
  · rw [newName_other h1]
    by_cases h2 : n ∈ novonixHeat.map Prod.fst
    · exact .inl (heat_targets n h2).1
    · right
      rw [newName_other h2]
      refine ⟨fun m hm => ?_, rfl⟩
      have key : ∀ p ∈ novonix, p.1 ∈ novonixNames.map Prod.fst ∨ p.1 ∈ novonixHeat.map Prod.fst := by decide +kernel
      rcases key _ hm with h | h
      · exact h1 h
      · exact h2 h

theorem heat_fst : (novonixHeat.map (fun p => (p.1, DType.float64))).map Prod.fst = novonixHeat.map Prod.fst := rfl

theorem typeOf_append (a b : List (String × DType)) (n : String) : typeOf (a ++ b) n = (typeOf a n).or (typeOf b n) := by
  unfold typeOf
  rw [List.find?_append]
  cases List.find? (fun p => decide (p.1 = n)) a <;> rfl

theorem novonixTable_ok {f g : Frame} (h : novonixTable f = .ok g) :
    List.Forall₂ (fun a b => Published novonix a.1 b.1 ∧ StoredAs novonixKinds a.1 a.2 b.2) f g := by
  unfold novonixTable at h
  split at h
  · cases h
  · next g1 h1 =>
    split at h
    · cases h
    · next k hk =>
      cases h
      rw [castAvailable_eq] at h1
      have hn : ((novonixTypes.filter (fun t => (names f).contains t.1)).map Prod.fst).Nodup :=
        (List.filter_sublist.map _).nodup (by decide +kernel)
      have s1 := castAll_ok hn h1
      unfold astype at hk
      split at hk
      · have s3 := castAll_ok (by rw [heat_fst]; decide +kernel) hk
        have s := forall₂_trans (forall₂_trans (forall₂_trans s1 (rename_forall novonixNames g1)) s3) (rename_forall novonixHeat k)
        have hm : ∀ p ∈ f, p.1 ∈ names f := fun p hp => List.mem_map_of_mem (f := Prod.fst) hp
        have key : ∀ {l : Frame} {m : Frame} {R S : String × List Cell → String × List Cell → Prop}, List.Forall₂ R l m →
            (∀ p ∈ l, ∀ q, R p q → S p q) → List.Forall₂ S l m := by
          intro l m R S h
          induction h with
          | nil => intro _; exact .nil
          | cons h1 _ ih => intro hRS; exact .cons (hRS _ (List.mem_cons_self ..) _ h1) (ih (fun p hp => hRS p (List.mem_cons_of_mem _ hp)))
        refine key s ?_
        rintro a ha b ⟨q3, ⟨q2, ⟨q1, ⟨e1, c1, c2⟩, e2, e2'⟩, e3, d1, d2⟩, e4, e4'⟩
        rw [typeOf_filter novonixTypes f a.1 (hm a ha)] at c1 c2
        rw [e4, e4', e3, e2, e1]
        refine ⟨novonix_published a.1, ?_⟩
        rw [e2, e1] at d1 d2
        refine novonix_agree.storedAs ?_ ?_
        · intro d hd
          rw [typeOf_append] at hd
          cases ht : typeOf novonixTypes a.1 with
          | some d' =>
            rw [ht] at hd
            cases hd
            have hmem : a.1 ∈ novonixNames.map Prod.fst := (novonix_keys a.1).mpr (List.mem_map_of_mem (f := Prod.fst) (typeOf_mem ht))
            rw [d2 (typeOf_none (by rw [heat_fst]; exact (novonix_targets _ hmem).1)), e2']
            exact c1 d ht
          | none =>
            rw [ht] at hd
            have hnm : a.1 ∉ novonixNames.map Prod.fst := by
              rw [novonix_keys]
              intro hmem
              obtain ⟨d', hd'⟩ := typeOf_some hmem
              rw [ht] at hd'; cases hd'
            rw [newName_other hnm] at d1
            have := d1 d hd
            rw [e2', c2 ht] at this
            exact this
        · intro hd
          rw [typeOf_append, Option.or_eq_none_iff] at hd
          have hnm : a.1 ∉ novonixNames.map Prod.fst := by
            rw [novonix_keys]
            intro hmem
            obtain ⟨d', hd'⟩ := typeOf_some hmem
            rw [hd.1] at hd'; cases hd'
          rw [newName_other hnm] at d2
          rw [d2 hd.2, e2', c2 hd.1]
      · cases hk

theorem asRead_same {xs ys : List Cell} (h : List.Forall₂ (Stored .asRead) xs ys) : ys = xs := by
  induction h with
  | nil => rfl
  | @cons x y _ _ h1 _ ih =>
    rw [ih]
    cases x <;> first | exact h1.elim | (rw [show y = _ from h1])

end Beep.RawUnits
