import Verif.Proof.Text
import Verif.Proof.Py
import Verif.Model.FixedWidth
import Verif.Spec.FixedWidth
/-
C35: fixed width tables of Biologic settings files.
-/
namespace Beep.Props.FixedWidth
open Beep Beep.FixedWidth Beep.Text Beep.Spec.FixedWidth

theorem ljust_length (w : Nat) (s : Str) (h : s.length ≤ w) : (ljust w s).length = w := by
  unfold ljust; rw [List.length_append, List.length_replicate]; omega

theorem strip_ljust (w : Nat) (s : Str) (h : Trimmed s) : strip (ljust w s) = s := by
  have := strip_mid [] s (List.replicate (w - s.length) ' ') (by simp)
    (by intro c hc; rw [List.eq_of_mem_replicate hc]; decide) h.1 h.2
  simpa [ljust] using this

/-- the text of a row -/
def rowText (w : Nat) (vs : List Str) : Str := (vs.map (ljust w)).flatten

theorem rowText_length (w : Nat) (vs : List Str) (h : ∀ v ∈ vs, v.length ≤ w) : (rowText w vs).length = vs.length * w := by
  induction vs with
  | nil => simp [rowText]
  | cons v vs ih =>
    have := ih (fun x hx => h x (List.mem_cons_of_mem _ hx))
    unfold rowText at *
    rw [List.map_cons, List.flatten_cons, List.length_append, this, ljust_length w v (h v (List.mem_cons_self ..)),
      List.length_cons]
    ring

theorem cell_rowText (w : Nat) (vs : List Str) (h : ∀ v ∈ vs, v.length ≤ w ∧ Trimmed v) (c : Nat) (v : Str)
    (hc : vs[c]? = some v) : cell w (rowText w vs) c = v := by
  induction vs generalizing c with
  | nil => simp at hc
  | cons a vs ih =>
    have ha := h a (List.mem_cons_self ..)
    unfold cell
    cases c with
    | zero =>
      simp only [List.getElem?_cons_zero, Option.some.injEq] at hc
      subst hc
      rw [Nat.zero_mul, List.drop_zero]
      unfold rowText
      rw [List.map_cons, List.flatten_cons, List.take_append_of_le_length (by rw [ljust_length w a ha.1]),
        List.take_of_length_le (by rw [ljust_length w a ha.1]), strip_ljust w a ha.2]
    | succ c =>
      simp only [List.getElem?_cons_succ] at hc
      have := ih (fun x hx => h x (List.mem_cons_of_mem _ hx)) c hc
      unfold cell at this
      rw [← this]
      congr 2
      unfold rowText
      rw [List.map_cons, List.flatten_cons, List.drop_append, ljust_length w a ha.1,
        List.drop_eq_nil_of_le (by rw [ljust_length w a ha.1]; nlinarith)]
      rw [show (c + 1) * w - w = c * w by rw [Nat.succ_mul]; omega]
      rfl

/-- the values under a key -/
def column (k : Str) (seqs : List (Dict Str Str)) : List Str := seqs.map (fun s => (s.get? k).getD [])

theorem cells_ok (w : Nat) (k : Str) (seqs : List (Dict Str Str)) (r : Str) (h : cells w k seqs = .ok r) :
    r = rowText w (column k seqs) ∧ (∀ s ∈ seqs, ∃ v, s.get? k = some v ∧ v.length ≤ w) := by
  induction seqs generalizing r with
  | nil => cases h; exact ⟨rfl, by intro s hs; cases hs⟩
  | cons s ss ih =>
    rw [cells] at h
    split at h
    · cases h
    · rename_i v hv
      split at h
      · cases h
      · rename_i hlen
        simp only [bind, Except.bind] at h
        split at h
        · cases h
        · rename_i r' hr'
          cases h
          obtain ⟨h1, h2⟩ := ih r' hr'
          refine ⟨?_, ?_⟩
          · rw [h1]; unfold rowText column; rw [List.map_cons, List.map_cons, List.flatten_cons, hv]; rfl
          · intro s' hs'
            rcases List.mem_cons.mp hs' with e | e
            · subst e; exact ⟨v, hv, by omega⟩
            · exact h2 s' e

theorem seqsToRows_ok (w : Nat) (keys : List Str) (seqs : List (Dict Str Str)) (rows : List Str)
    (h : seqsToRows w keys seqs = .ok rows) :
    rows = keys.map (fun k => rowText w (k :: column k seqs)) ∧
    ∀ k ∈ keys, k.length ≤ w ∧ ∀ s ∈ seqs, ∃ v, s.get? k = some v ∧ v.length ≤ w := by
  induction keys generalizing rows with
  | nil => cases h; exact ⟨rfl, by intro k hk; cases hk⟩
  | cons k ks ih =>
    rw [seqsToRows] at h
    split at h
    · cases h
    · rename_i hlen
      simp only [bind, Except.bind] at h
      split at h
      · cases h
      · rename_i r hr
        split at h
        · cases h
        · rename_i rs hrs
          cases h
          obtain ⟨h1, h2⟩ := ih rs hrs
          obtain ⟨h3, h4⟩ := cells_ok w k seqs r hr
          refine ⟨by rw [List.map_cons, ← h1, h3]; rfl, ?_⟩
          intro k' hk'
          rcases List.mem_cons.mp hk' with e | e
          · subst e; exact ⟨by omega, h4⟩
          · exact h2 k' e

/-- C35: a table is refused exactly when a key or value is wider than its column or a field is
missing; nothing is cut off. -/
theorem C35_refused (w : Nat) (keys : List Str) (seqs : List (Dict Str Str)) :
    (∃ e, seqsToRows w keys seqs = .error e) ↔
      ∃ k ∈ keys, k.length > w ∨ ∃ s ∈ seqs, s.get? k = none ∨ ∃ v, s.get? k = some v ∧ v.length > w := by
  constructor
  · rintro ⟨e, he⟩
    induction keys with
    | nil => cases he
    | cons k ks ih =>
      rw [seqsToRows] at he
      split at he
      · rename_i hl; exact ⟨k, List.mem_cons_self .., Or.inl hl⟩
      · simp only [bind, Except.bind] at he
        split at he
        · rename_i e' hc
          refine ⟨k, List.mem_cons_self .., Or.inr ?_⟩
          clear he ih
          induction seqs with
          | nil => cases hc
          | cons s ss ih2 =>
            rw [cells] at hc
            split at hc
            · rename_i hn; exact ⟨s, List.mem_cons_self .., Or.inl hn⟩
            · rename_i v hv
              split at hc
              · rename_i hl; exact ⟨s, List.mem_cons_self .., Or.inr ⟨v, hv, hl⟩⟩
              · simp only [bind, Except.bind] at hc
                split at hc
                · rename_i e2 h2
                  cases hc
                  obtain ⟨s', hs', h'⟩ := ih2 h2
                  exact ⟨s', List.mem_cons_of_mem _ hs', h'⟩
                · cases hc
        · split at he
          · rename_i e' hrs
            cases he
            obtain ⟨k', hk', h'⟩ := ih hrs
            exact ⟨k', List.mem_cons_of_mem _ hk', h'⟩
          · cases he
  · rintro ⟨k, hk, hbad⟩
    cases h : seqsToRows w keys seqs with
    | error e => exact ⟨e, rfl⟩
    | ok rows =>
      obtain ⟨_, h2⟩ := seqsToRows_ok w keys seqs rows h
      obtain ⟨h3, h4⟩ := h2 k hk
      rcases hbad with hb | ⟨s, hs, hb⟩
      · omega
      · obtain ⟨v, hv, hlen⟩ := h4 s hs
        rcases hb with hb | ⟨v', hv', hl⟩
        · rw [hb] at hv; cases hv
        · rw [hv] at hv'; cases hv'; omega

theorem maxLen_const (lines : List Str) (n : Nat) (hne : lines ≠ []) (h : ∀ l ∈ lines, l.length = n) : maxLen lines = n := by
  induction lines with
  | nil => exact absurd rfl hne
  | cons l ls ih =>
    rw [maxLen, h l (List.mem_cons_self ..)]
    cases ls with
    | nil => simp [maxLen]
    | cons l' ls' => rw [ih (by simp) (fun x hx => h x (List.mem_cons_of_mem _ hx))]; simp

theorem zipDict_eq (hs : List Str) (hn : hs.Nodup) (f : Str → Str) : zipDict hs (hs.map f) = hs.map (fun k => (k, f k)) := by
  unfold zipDict
  have hz : hs.zip (hs.map f) = hs.map (fun k => (k, f k)) := by
    clear hn
    induction hs with
    | nil => rfl
    | cons a as ih => rw [List.map_cons, List.zip_cons_cons, ih, List.map_cons]
  rw [hz]
  have key : ∀ (l d : Dict Str Str), (Dict.keys (d ++ l)).Nodup →
      l.foldl (fun d kv => Dict.set d kv.1 kv.2) d = d ++ l := by
    intro l
    induction l with
    | nil => intro d _; simp
    | cons kv l ih =>
      intro d hd
      have hnew : ∀ (d : Dict Str Str), kv.1 ∉ Dict.keys d → Dict.set d kv.1 kv.2 = d ++ [kv] := by
        intro d
        induction d with
        | nil => intro _; rfl
        | cons x d ihd =>
          intro hx
          unfold Dict.keys at hx
          rw [List.map_cons, List.mem_cons, not_or] at hx
          rw [Dict.set, if_neg (fun e => hx.1 e.symm), ihd hx.2]
          rfl
      have hnot : kv.1 ∉ Dict.keys d := by
        unfold Dict.keys at hd ⊢
        rw [List.map_append, List.map_cons] at hd
        have := (List.nodup_append.mp hd).2.2
        intro hm
        exact this kv.1 hm kv.1 (List.mem_cons_self ..) rfl
      rw [List.foldl_cons, hnew d hnot, ih (d ++ [kv])]
      · simp
      · rw [List.append_assoc]; exact hd
  have := key (hs.map (fun k => (k, f k))) [] (by
    unfold Dict.keys
    rw [List.nil_append, List.map_map, show (Prod.fst ∘ fun k => (k, f k)) = id from rfl, List.map_id]
    exact hn)
  rw [this]; rfl

theorem dict_eq_of_keys (s : Dict Str Str) (keys : List Str) (h : HasKeys keys s) (hn : keys.Nodup) :
    keys.map (fun k => (k, (s.get? k).getD [])) = s := by
  subst h
  induction s with
  | nil => rfl
  | cons kv s ih =>
    rw [List.map_cons, List.nodup_cons] at hn
    rw [List.map_cons, List.map_cons]
    congr 1
    · simp [Dict.get?]
    · conv_rhs => rw [← ih hn.2]
      apply List.map_congr_left
      intro k hk
      rw [Dict.get?, if_neg]
      rintro rfl
      exact hn.1 hk

/-- C35: sequences written as a table are read back, provided keys and values have no blanks at their
ends.  Missing: texts with such blanks. -/
theorem C35_round_trip_partial (w : Nat) (hw : 0 < w) (keys : List Str) (hk0 : keys ≠ []) (hn : keys.Nodup)
    (seqs : List (Dict Str Str)) (hk : ∀ s ∈ seqs, HasKeys keys s) (hkt : ∀ k ∈ keys, Trimmed k)
    (hvt : ∀ s ∈ seqs, ∀ kv ∈ s, Trimmed kv.2) (rows : List Str) (h : seqsToRows w keys seqs = .ok rows) :
    readTable w rows = seqs := by
  obtain ⟨h1, h2⟩ := seqsToRows_ok w keys seqs rows h
  have hrow : ∀ k ∈ keys, ∀ v ∈ k :: column k seqs, v.length ≤ w ∧ Trimmed v := by
    intro k hkm v hv
    rcases List.mem_cons.mp hv with e | e
    · subst e; exact ⟨(h2 v hkm).1, hkt v hkm⟩
    · obtain ⟨s, hs, rfl⟩ := List.mem_map.mp e
      obtain ⟨v, hv, hlen⟩ := (h2 k hkm).2 s hs
      rw [hv]
      exact ⟨hlen, hvt s hs (k, v) (Dict.get?_some_mem hv)⟩
  have hlen : ∀ l ∈ rows, l.length = (seqs.length + 1) * w := by
    intro l hl
    rw [h1] at hl
    obtain ⟨k, hkm, rfl⟩ := List.mem_map.mp hl
    rw [rowText_length w _ (fun v hv => (hrow k hkm v hv).1), List.length_cons, column, List.length_map]
  unfold readTable
  rw [maxLen_const rows _ (by rw [h1]; simpa using hk0) hlen, Nat.mul_div_cancel _ hw]
  dsimp only
  rw [Nat.add_sub_cancel]
  apply List.ext_getElem?
  intro i
  rw [List.getElem?_map]
  by_cases hi : i < seqs.length
  · rw [List.getElem?_range' hi, List.getElem?_eq_getElem hi]
    simp only [Option.map_some]
    congr 1
    have hs : seqs[i] ∈ seqs := List.getElem_mem hi
    have e0 : rows.map (fun l => cell w l 0) = keys := by
      rw [h1, List.map_map]
      conv_rhs => rw [← List.map_id keys]
      apply List.map_congr_left
      intro k hkm
      exact cell_rowText w _ (hrow k hkm) 0 k rfl
    have e1 : rows.map (fun l => cell w l (1 + 1 * i)) = keys.map (fun k => ((seqs[i]).get? k).getD []) := by
      rw [h1, List.map_map]
      apply List.map_congr_left
      intro k hkm
      apply cell_rowText w _ (hrow k hkm)
      rw [show 1 + 1 * i = i + 1 by omega, List.getElem?_cons_succ, column, List.getElem?_map,
        List.getElem?_eq_getElem hi]
      rfl
    rw [e0, e1, zipDict_eq keys hn, dict_eq_of_keys (seqs[i]) keys (hk _ hs) hn]
  · rw [List.getElem?_eq_none (by simp; omega), List.getElem?_eq_none (by omega)]
    rfl

/-- C35 fails: a value with a blank at its end is accepted and read back without it. -/
theorem C35_blank_violated :
    let keys := ["ctrl_type".toList]
    let seqs : List (Dict Str Str) := [[("ctrl_type".toList, "CC ".toList)]]
    (seqsToRows 20 keys seqs).map (readTable 20) = .ok [[("ctrl_type".toList, "CC".toList)]] := by
  decide +kernel

/-- C35 fails: `Settings.to_file` writes a value that is wider than its column, and the columns behind
it are read back shifted. -/
theorem C35_wide_violated :
    let keys := ["ctrl1_val".toList]
    let seqs : List (Dict Str Str) := [[("ctrl1_val".toList, "123456789.123456789.12".toList)], [("ctrl1_val".toList, "1.5".toList)]]
    (settingsRows 20 keys seqs).map (readTable 20) =
      .ok [[("ctrl1_val".toList, "123456789.123456789.".toList)], [("ctrl1_val".toList, "121.5".toList)]] := by
  decide +kernel

/-- a table to which the round trip applies -/
example :
    let keys := ["Ns".toList, "ctrl_type".toList]
    let seqs : List (Dict Str Str) := [[("Ns".toList, "0".toList), ("ctrl_type".toList, "CC".toList)],
      [("Ns".toList, "1".toList), ("ctrl_type".toList, "".toList)]]
    (seqsToRows 20 keys seqs).toOption.isSome = true ∧ keys.Nodup ∧ (∀ s ∈ seqs, HasKeys keys s) := by
  refine ⟨by decide +kernel, by decide +kernel, ?_⟩
  intro s hs
  simp only [List.mem_cons, List.not_mem_nil, or_false] at hs
  rcases hs with rfl | rfl <;> rfl

end Beep.Props.FixedWidth
