import Verif.Proof.Base
import Verif.Proof.Py
import Verif.Proof.Text
import Verif.Proof.Batch
import Verif.Proof.Rounding
import Verif.Spec.BiologicFile
import Mathlib.Data.List.Forall2
/-
Lemmas about the reader of Biologic exports.
-/
namespace Beep.Proof.BiologicFile
open Beep Beep.BiologicFile Beep.Spec.BiologicFile Beep.Proof

theorem splitC_fields (sep : Char) (s : Str) : Fields sep s (Text.splitC sep s) := by
  induction s with
  | nil => exact ⟨by simp [Text.splitC], by simp [Text.splitC], by simp [Text.splitC]⟩
  | cons x xs ih =>
    obtain ⟨h1, h2, h3⟩ := ih
    rw [Text.splitC]
    split
    · rename_i e
      refine ⟨by simp, ?_, ?_⟩
      · intro f hf
        rcases List.mem_cons.mp hf with rfl | hf
        · simp
        · exact h2 f hf
      · cases hc : Text.splitC sep xs with
        | nil => exact absurd hc h1
        | cons p ps =>
          rw [List.intercalate_cons_cons, ← hc, ← h3, e]
          rfl
    · rename_i e
      cases hc : Text.splitC sep xs with
      | nil => exact absurd hc h1
      | cons p ps =>
        rw [hc] at h2 h3
        refine ⟨by simp, ?_, ?_⟩
        · intro f hf
          rcases List.mem_cons.mp hf with rfl | hf
          · rw [List.mem_cons, not_or]
            exact ⟨fun h => e h.symm, h2 p (List.mem_cons_self ..)⟩
          · exact h2 f (List.mem_cons_of_mem _ hf)
        · cases ps with
          | nil => rw [h3]; simp
          | cons q qs =>
            rw [List.intercalate_cons_cons] at h3 ⊢
            rw [h3]; simp

theorem join_eq (sep : Str) (l : List Str) : Text.join sep l = List.intercalate sep l := by
  induction l with
  | nil => simp [Text.join]
  | cons a l ih =>
    cases l with
    | nil => simp [Text.join]
    | cons b l => rw [Text.join, List.intercalate_cons_cons, ih]

theorem fields_iff (sep : Char) (s : Str) (fs : List Str) : Fields sep s fs ↔ Text.splitC sep s = fs := by
  constructor
  · rintro ⟨h1, h2, rfl⟩
    rw [← join_eq, Text.splitC_join sep fs h1 h2]
  · rintro rfl
    exact splitC_fields sep s

theorem isHeader_iff (l : Str) : isHeader l = true ↔ Names l := by
  unfold isHeader Names
  rw [Bool.and_eq_true, containsSub_iff, Bool.not_eq_true', ← Bool.not_eq_true, containsSub_iff]

theorem header_cons (l : Str) (ls : List Str) (k : Nat) :
    Header (l :: ls) k ↔ (k = 0 ∧ Names l) ∨ ∃ k', k = k' + 1 ∧ ¬ Names l ∧ Header ls k' := by
  constructor
  · rintro ⟨⟨x, hx, hn⟩, h⟩
    cases k with
    | zero =>
      simp at hx
      subst hx
      exact .inl ⟨rfl, hn⟩
    | succ k =>
      refine .inr ⟨k, rfl, h 0 l (by omega) rfl, ⟨⟨x, by simpa using hx, hn⟩, fun i l' hi hl' => ?_⟩⟩
      exact h (i + 1) l' (by omega) (by simpa using hl')
  · rintro (⟨rfl, hn⟩ | ⟨k', rfl, hn, ⟨x, hx, hx'⟩, h⟩)
    · exact ⟨⟨l, rfl, hn⟩, fun i _ hi => absurd hi (by omega)⟩
    · refine ⟨⟨x, by simpa using hx, hx'⟩, fun i l' hi hl' => ?_⟩
      cases i with
      | zero => simp at hl'; subst hl'; exact hn
      | succ i => exact h i l' (by omega) (by simpa using hl')

theorem findHeader_iff (n i : Nat) (lines : List Str) (h : Nat) :
    findHeader n i lines = .ok h ↔ ∃ k, h = i + k ∧ Header lines k ∧ i + k < n := by
  induction lines generalizing i with
  | nil =>
    rw [findHeader]
    refine ⟨fun h => (nomatch h), ?_⟩
    rintro ⟨k, _, ⟨⟨l, hl, _⟩, _⟩, _⟩
    simp at hl
  | cons l ls ih =>
    rw [findHeader]
    split
    · rename_i hgt
      refine ⟨fun h => (nomatch h), ?_⟩
      rintro ⟨k, _, _, hk⟩
      omega
    · rename_i hle
      split
      · rename_i hh
        rw [isHeader_iff] at hh
        constructor
        · intro e
          cases e
          exact ⟨0, rfl, (header_cons l ls 0).mpr (.inl ⟨rfl, hh⟩), by omega⟩
        · rintro ⟨k, rfl, hk, _⟩
          rcases (header_cons l ls k).mp hk with ⟨rfl, _⟩ | ⟨_, _, hn, _⟩
          · rfl
          · exact absurd hh hn
      · rename_i hh
        rw [isHeader_iff] at hh
        rw [ih]
        constructor
        · rintro ⟨k, rfl, hk, hlt⟩
          exact ⟨k + 1, by omega, (header_cons l ls _).mpr (.inr ⟨k, rfl, hh, hk⟩), by omega⟩
        · rintro ⟨k, rfl, hk, hlt⟩
          rcases (header_cons l ls k).mp hk with ⟨rfl, hn⟩ | ⟨k', rfl, _, hk'⟩
          · exact absurd hn hh
          · exact ⟨k', by omega, hk', by omega⟩

theorem findHeader_err (n i : Nat) (lines : List Str) (e : Err) (h : findHeader n i lines = .error e) : e = .keyError := by
  induction lines generalizing i with
  | nil => cases h; rfl
  | cons l ls ih =>
    rw [findHeader] at h
    split at h
    · cases h; rfl
    · split at h
      · cases h
      · exact ih _ h

theorem splitext_iff (path ext : Str) (hext : '.' ∉ ext) (hs : '/' ∉ ext) :
    (Batch.splitext (Batch.basename path)).2 = '.' :: ext ↔
      ∃ dir name, path = dir ++ name ++ '.' :: ext ∧ (dir = [] ∨ ∃ d, dir = d ++ ['/']) ∧ '/' ∉ name ∧ ∃ c ∈ name, c ≠ '.' := by
  constructor
  · intro h
    obtain ⟨d, hd, h1, h2⟩ := Batch.basename_split path
    unfold Batch.splitext at h
    split at h
    · rename_i a b hab
      split at h
      · rename_i hany
        simp only at h
        subst h
        obtain ⟨e, _⟩ := Batch.lastDot_some _ _ _ hab
        rw [e] at hd h2
        refine ⟨d, a, by rw [hd, List.append_assoc], h1, fun hc => h2 (List.mem_append_left _ hc), ?_⟩
        simpa using hany
      · cases h
    · cases h
  · rintro ⟨dir, name, rfl, hd, hn, hc⟩
    rw [List.append_assoc, Batch.basename_append dir _ hd (by
      rw [List.mem_append, not_or]
      exact ⟨hn, by rw [List.mem_cons, not_or]; exact ⟨by decide, hs⟩⟩)]
    unfold Batch.splitext
    rw [Batch.lastDot_append name ext hext]
    simp only
    rw [if_pos (by simpa using hc)]

theorem fileType_iff (path : Str) (c : Char) : (∃ e, fileType path = .ok (c, e)) ↔ Separated path c := by
  have e1 : ".csv".toList = '.' :: "csv".toList := rfl
  have e2 : ".txt".toList = '.' :: "txt".toList := rfl
  unfold fileType
  constructor
  · rintro ⟨e, h⟩
    split at h
    · rename_i hh
      cases h
      rw [e1, splitext_iff path _ (by decide) (by decide)] at hh
      obtain ⟨dir, name, rfl, a, b, d⟩ := hh
      exact .csv a b d
    · split at h
      · rename_i hh
        cases h
        rw [e2, splitext_iff path _ (by decide) (by decide)] at hh
        obtain ⟨dir, name, rfl, a, b, d⟩ := hh
        exact .txt a b d
      · cases h
  · intro h
    cases h with
    | csv a b d =>
      have := (splitext_iff _ "csv".toList (by decide) (by decide)).mpr ⟨_, _, rfl, a, b, d⟩
      rw [← e1] at this
      rw [if_pos this]
      exact ⟨_, rfl⟩
    | txt a b d =>
      have := (splitext_iff _ "txt".toList (by decide) (by decide)).mpr ⟨_, _, rfl, a, b, d⟩
      rw [← e2] at this
      rw [if_neg (by rw [this]; decide), if_pos this]
      exact ⟨_, rfl⟩

theorem trunc_whole (q : Rat) : Whole q (Units.trunc q) := by
  unfold Units.trunc Whole
  constructor
  · intro h
    rw [if_pos h]
    exact ⟨Int.floor_le q, Int.lt_floor_add_one q⟩
  · intro h
    rw [if_neg (not_le.mpr h)]
    push_cast
    have h1 : ((-q).floor : Rat) ≤ -q := Int.floor_le (-q)
    have h2 : -q < ((-q).floor : Rat) + 1 := Int.lt_floor_add_one (-q)
    constructor <;> linarith

theorem convert_reads {num : Str → Except Err (Option Rat)} {c : Column} {item : Str} {v : Cell}
    (h : convert num (some c) item = .ok v) : Reads num c item v := by
  unfold convert at h
  simp only at h
  cases hk : c.kind with
  | int =>
    rw [hk] at h
    simp only [toInt, bind, Except.bind] at h
    cases hn : num item with
    | error e => rw [hn] at h; cases h
    | ok o =>
      rw [hn] at h
      cases o with
      | none => cases h
      | some q => cases h; exact .int hk hn (trunc_whole q)
  | float =>
    rw [hk] at h
    simp only [bind, Except.bind] at h
    cases hn : num item with
    | error e => rw [hn] at h; cases h
    | ok o =>
      rw [hn] at h
      cases o with
      | none => cases h; exact .nan hk hn
      | some q => cases h; exact .float hk hn
  | text =>
    rw [hk] at h
    cases h
    exact .text hk

/-! ### the columns -/

theorem addRow_get (num : Str → Except Err (Option Rat)) (cfg : List Column) (cs : List Str) (hnd : cs.Nodup)
    (raw raw' : Dict Str (List Cell)) (items : List Str) (h : addRow num cfg cs raw items = .ok raw') :
    (∀ k, k ∉ cs → raw'.get? k = raw.get? k) ∧
    ∀ (j : Nat) (name : Str), cs[j]? = some name →
      (∀ x, items[j]? = some x → ∃ v, convert num (colOf cfg name) x = .ok v ∧
        raw'.get? name = some ((raw.get? name).getD [] ++ [v])) ∧
      (items[j]? = none → raw'.get? name = raw.get? name) := by
  induction cs generalizing raw items with
  | nil =>
    cases items with
    | nil => cases h; exact ⟨fun _ _ => rfl, fun j name hj => by simp at hj⟩
    | cons x xs => cases h
  | cons c cs ih =>
    rw [List.nodup_cons] at hnd
    cases items with
    | nil =>
      cases h
      exact ⟨fun _ _ => rfl, fun j name _ => ⟨fun x hx => by simp at hx, fun _ => rfl⟩⟩
    | cons x xs =>
      rw [addRow] at h
      simp only [bind, Except.bind] at h
      cases hv : convert num (colOf cfg c) x with
      | error e => rw [hv] at h; cases h
      | ok v =>
        rw [hv] at h
        obtain ⟨h1, h2⟩ := ih hnd.2 _ xs h
        constructor
        · intro k hk
          rw [List.mem_cons, not_or] at hk
          rw [h1 k hk.2, Dict.get?_set_ne _ _ hk.1]
        · intro j name hj
          cases j with
          | zero =>
            simp at hj
            subst hj
            refine ⟨fun y hy => ?_, fun hn => by simp at hn⟩
            simp at hy
            subst hy
            exact ⟨v, hv, by rw [h1 c hnd.1, Dict.get?_set_self]⟩
          | succ j =>
            simp only [List.getElem?_cons_succ] at hj ⊢
            have hne : name ≠ c := by
              rintro rfl
              exact hnd.1 (List.mem_of_getElem? hj)
            obtain ⟨a, b⟩ := h2 j name hj
            rw [Dict.get?_set_ne _ _ hne] at a b
            exact ⟨a, b⟩

theorem addRows_get (num : Str → Except Err (Option Rat)) (cfg : List Column) (cs : List Str) (hnd : cs.Nodup)
    (raw raw' : Dict Str (List Cell)) (rows : List (List Str)) (h : addRows num cfg cs raw rows = .ok raw')
    (j : Nat) (name : Str) (hj : cs[j]? = some name) (l0 : List Cell) (h0 : raw.get? name = some l0) :
    ∃ l, raw'.get? name = some (l0 ++ l) ∧
      List.Forall₂ (fun row v => ∃ x, row[j]? = some x ∧ convert num (colOf cfg name) x = .ok v)
        (rows.filter (fun r => decide (j < r.length))) l := by
  induction rows generalizing raw l0 with
  | nil => cases h; exact ⟨[], by simpa using h0, by simp⟩
  | cons r rs ih =>
    rw [addRows] at h
    simp only [bind, Except.bind] at h
    cases hr : addRow num cfg cs raw r with
    | error e => rw [hr] at h; cases h
    | ok raw1 =>
      rw [hr] at h
      obtain ⟨_, h2⟩ := addRow_get num cfg cs hnd raw raw1 r hr
      obtain ⟨a, b⟩ := h2 j name hj
      by_cases hlt : j < r.length
      · obtain ⟨v, hv, hg⟩ := a r[j] (List.getElem?_eq_getElem hlt)
        rw [h0] at hg
        obtain ⟨l, hl, hf⟩ := ih raw1 h (l0 ++ [v]) hg
        refine ⟨v :: l, by rw [hl]; simp, ?_⟩
        rw [List.filter_cons, if_pos (by simpa using hlt)]
        exact .cons ⟨r[j], List.getElem?_eq_getElem hlt, hv⟩ hf
      · have hg := b (List.getElem?_eq_none (by omega))
        rw [h0] at hg
        obtain ⟨l, hl, hf⟩ := ih raw1 h l0 hg
        refine ⟨l, hl, ?_⟩
        rw [List.filter_cons, if_neg (by simpa using hlt)]
        exact hf

theorem addRows_other (num : Str → Except Err (Option Rat)) (cfg : List Column) (cs : List Str) (hnd : cs.Nodup)
    (raw raw' : Dict Str (List Cell)) (rows : List (List Str)) (h : addRows num cfg cs raw rows = .ok raw')
    (k : Str) (hk : k ∉ cs) : raw'.get? k = raw.get? k := by
  induction rows generalizing raw with
  | nil => cases h; rfl
  | cons r rs ih =>
    rw [addRows] at h
    simp only [bind, Except.bind] at h
    cases hr : addRow num cfg cs raw r with
    | error e => rw [hr] at h; cases h
    | ok raw1 =>
      rw [hr] at h
      rw [ih raw1 h, (addRow_get num cfg cs hnd raw raw1 r hr).1 k hk]

theorem emptyRaw_get (cs : List Str) (k : Str) : (emptyRaw cs).get? k = if k ∈ cs then some [] else none := by
  have gen : ∀ (cs : List Str) (d : Dict Str (List Cell)),
      (cs.foldl (fun d c => d.set c []) d).get? k = if k ∈ cs then some [] else d.get? k := by
    intro cs
    induction cs with
    | nil => intro d; simp
    | cons c cs ih =>
      intro d
      rw [List.foldl_cons, ih]
      by_cases h1 : k ∈ cs
      · rw [if_pos h1, if_pos (List.mem_cons_of_mem _ h1)]
      · rw [if_neg h1, Dict.get?_set]
        by_cases h2 : k = c
        · subst h2; simp
        · rw [if_neg h2, if_neg (fun h => (List.mem_cons.mp h).elim h2 h1)]
  exact gen cs []

theorem pick_spec {raw data : Dict Str (List Cell)} {cfg : List Column} (h : pick raw cfg = .ok data) :
    List.Forall₂ (fun c d => d.1 = c.beep ∧ raw.get? c.name = some d.2) cfg data := by
  induction cfg generalizing data with
  | nil => cases h; exact .nil
  | cons c cs ih =>
    rw [pick] at h
    split at h
    · cases h
    · rename_i l hl
      simp only [bind, Except.bind] at h
      cases hp : pick raw cs with
      | error e => rw [hp] at h; cases h
      | ok d =>
        rw [hp] at h; cases h
        exact .cons ⟨rfl, hl⟩ (ih hp)

theorem mapE_forall {α β : Type} {f : α → Except Err β} {l : List α} {out : List β} (h : mapE f l = .ok out) :
    List.Forall₂ (fun a b => f a = .ok b) l out := by
  induction l generalizing out with
  | nil => cases h; exact .nil
  | cons a l ih =>
    rw [mapE] at h
    simp only [bind, Except.bind] at h
    cases ha : f a with
    | error e => rw [ha] at h; cases h
    | ok b =>
      rw [ha] at h
      simp only at h
      cases hl : mapE f l with
      | error e => rw [hl] at h; cases h
      | ok bs => rw [hl] at h; cases h; exact .cons ha (ih hl)

/-- nested filters of the same length are equal -/
theorem filter_eq {α : Type} (l : List α) (p q : α → Bool) (hpq : ∀ x ∈ l, p x = true → q x = true)
    (hlen : (l.filter p).length = (l.filter q).length) : l.filter p = l.filter q := by
  have e : l.filter p = (l.filter q).filter p := by
    rw [List.filter_filter]
    apply List.filter_congr
    intro x hx
    cases hp : p x with
    | false => rfl
    | true => rw [hpq x hx hp]; rfl
  rw [e] at hlen ⊢
  rw [List.filter_eq_self, ← List.length_filter_eq_length_iff] 
  exact hlen

theorem filter_len_eq (rows : List (List Str)) (i j : Nat)
    (h : (rows.filter (fun r => decide (i < r.length))).length = (rows.filter (fun r => decide (j < r.length))).length) :
    rows.filter (fun r => decide (i < r.length)) = rows.filter (fun r => decide (j < r.length)) := by
  rcases Nat.le_total i j with hij | hij
  · exact (filter_eq rows _ _ (fun x _ hx => by simp at hx ⊢; omega) h.symm).symm
  · exact filter_eq rows _ _ (fun x _ hx => by simp at hx ⊢; omega) h

end Beep.Proof.BiologicFile
