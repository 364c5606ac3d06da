import Verif.Proof.Base
import Verif.Proof.Text
import Verif.Proof.Py
import Verif.Props.FixedWidth
import Verif.Model.Settings
import Verif.Spec.Settings
/-
Lemmas about Biologic settings files.
-/
namespace Beep.Proof.Settings
open Beep Beep.Settings Beep.Text Beep.FixedWidth Beep.Spec.FixedWidth Beep.Spec.Settings
open Beep.Props.FixedWidth

/-! ### digits -/

theorem digits_isDigit (n : Nat) : ∀ c ∈ digits n, c.isDigit = true := fun _ hc =>
  Nat.isDigit_of_mem_toDigits (b := 10) (by decide) (by decide) hc

theorem digits_ne (n : Nat) (c : Char) (h : c.isDigit = false) : c ∉ digits n := by
  intro hc
  rw [digits_isDigit n c hc] at h
  cases h

theorem digits_inj (i j : Nat) (h : digits i = digits j) : i = j := by
  have h2 := congrArg (fun l => Nat.ofDigitChars 10 l 0) h
  simpa [digits, Nat.ofDigitChars_ten_toDigits] using h2

/-! ### lines -/

theorem splitLines_plain (a : Str) (h : OneLine a) : splitLines a = [a] := by
  induction a with
  | nil => rfl
  | cons c cs ih =>
    have hr : c ≠ '\r' := fun e => h.1 (e ▸ List.mem_cons_self ..)
    have hn : c ≠ '\n' := fun e => h.2 (e ▸ List.mem_cons_self ..)
    rw [splitLines.eq_3 _ _ (by intro cs' e; exact absurd e hr), if_neg (by simp [hr, hn]),
      ih ⟨fun hc => h.1 (List.mem_cons_of_mem _ hc), fun hc => h.2 (List.mem_cons_of_mem _ hc)⟩]
    rfl

theorem splitLines_break (a t : Str) (h : OneLine a) : splitLines (a ++ '\r' :: '\n' :: t) = a :: splitLines t := by
  induction a with
  | nil => rfl
  | cons c cs ih =>
    have hr : c ≠ '\r' := fun e => h.1 (e ▸ List.mem_cons_self ..)
    have hn : c ≠ '\n' := fun e => h.2 (e ▸ List.mem_cons_self ..)
    rw [List.cons_append, splitLines.eq_3 _ _ (by intro cs' e; exact absurd e hr), if_neg (by simp [hr, hn]),
      ih ⟨fun hc => h.1 (List.mem_cons_of_mem _ hc), fun hc => h.2 (List.mem_cons_of_mem _ hc)⟩]
    rfl

theorem splitLines_join (ls : List Str) (hne : ls ≠ []) (h : ∀ l ∈ ls, OneLine l) :
    splitLines (join "\r\n".toList ls) = ls := by
  induction ls with
  | nil => exact absurd rfl hne
  | cons a l ih =>
    cases l with
    | nil => exact splitLines_plain a (h a (List.mem_cons_self ..))
    | cons b l =>
      rw [show join "\r\n".toList (a :: b :: l) = a ++ '\r' :: '\n' :: join "\r\n".toList (b :: l) by
        rw [join, List.append_assoc]; rfl]
      rw [splitLines_break a _ (h a (List.mem_cons_self ..)),
        ih (by simp) (fun x hx => h x (List.mem_cons_of_mem _ hx))]

theorem splitLines_mps (ls : List Str) (h : ∀ l ∈ ls, OneLine l) : splitLines (mpsText ls) = ls ++ [[]] := by
  induction ls with
  | nil => rfl
  | cons a l ih =>
    rw [show mpsText (a :: l) = a ++ '\r' :: '\n' :: mpsText l by
      unfold mpsText; rw [List.map_cons, List.flatten_cons, List.append_assoc]; rfl]
    rw [splitLines_break a _ (h a (List.mem_cons_self ..)), ih (fun x hx => h x (List.mem_cons_of_mem _ hx))]
    rfl

/-! ### headings -/

theorem filter_none {α : Type} (p : α → Bool) (d : α) (b : List α) (h : ∀ x ∈ b, p x = false) :
    (List.range b.length).filter (fun i => p (b.getD i d)) = [] := by
  rw [List.filter_eq_nil_iff]
  intro i hi
  have hi := List.mem_range.mp hi
  have : b.getD i d = b[i] := by simp [List.getD, List.getElem?_eq_getElem hi]
  rw [this, h _ (List.getElem_mem hi)]
  simp

theorem filter_one {α : Type} (p : α → Bool) (d : α) (a b : List α) (x : α) (ha : ∀ y ∈ a, p y = false) (hx : p x = true)
    (hb : ∀ y ∈ b, p y = false) :
    (List.range (a ++ x :: b).length).filter (fun i => p ((a ++ x :: b).getD i d)) = [a.length] := by
  induction a with
  | nil =>
    rw [List.nil_append, List.length_cons, List.range_succ_eq_map, List.filter_cons,
      if_pos (by simpa using hx), List.filter_map]
    have := filter_none p d b hb
    rw [show ((fun i => p ((x :: b).getD i d)) ∘ Nat.succ) = (fun i => p (b.getD i d)) from rfl, this]
    rfl
  | cons y a ih =>
    rw [List.cons_append, List.length_cons, List.range_succ_eq_map, List.filter_cons,
      if_neg (by simpa using ha y (List.mem_cons_self ..)), List.filter_map]
    have := ih (fun z hz => ha z (List.mem_cons_of_mem _ hz))
    rw [show ((fun i => p ((y :: (a ++ x :: b)).getD i d)) ∘ Nat.succ) = (fun i => p ((a ++ x :: b).getD i d)) from rfl, this]
    rfl

theorem kept_eq (len : Nat) (ls : List Str) (k : Nat) (hk : k < ls.length) :
    keptLines len ls k = List.range' 0 (k + 1) ++ List.range' (k + 1 + len) (ls.length - (k + 1 + len)) := by
  unfold keptLines
  obtain ⟨m, hm⟩ : ∃ m, ls.length = (k + 1) + m := ⟨ls.length - (k + 1), by omega⟩
  rw [List.range_eq_range', hm]
  have e1 : List.range' 0 (k + 1 + m) = List.range' 0 (k + 1) ++ List.range' (k + 1) m := by
    have := List.range'_append (s := 0) (m := k + 1) (n := m) (step := 1)
    rw [← this]; simp
  rw [e1, List.filter_append]
  congr 1
  · rw [List.filter_eq_self]
    intro i hi
    have := List.mem_range'_1.mp hi
    simp only [Bool.not_eq_true', Bool.and_eq_false_iff, decide_eq_false_iff_not]
    left; omega
  · by_cases hle : len ≤ m
    · have e2 : List.range' (k + 1) m = List.range' (k + 1) len ++ List.range' (k + 1 + len) (m - len) := by
        have := List.range'_append (s := k + 1) (m := len) (n := m - len) (step := 1)
        rw [show len + (m - len) = m by omega, Nat.one_mul] at this
        exact this.symm
      rw [e2, List.filter_append, List.filter_eq_nil_iff.mpr, List.filter_eq_self.mpr, List.nil_append]
      · congr 1; omega
      · intro i hi
        have := List.mem_range'_1.mp hi
        simp only [Bool.not_eq_true', Bool.and_eq_false_iff, decide_eq_false_iff_not]
        right; omega
      · intro i hi
        have := List.mem_range'_1.mp hi
        simp only [Bool.not_eq_true', Bool.and_eq_false_iff, decide_eq_false_iff_not]
        omega
    · rw [show k + 1 + m - (k + 1 + len) = 0 by omega, List.filter_eq_nil_iff.mpr]
      · rfl
      · intro i hi
        have := List.mem_range'_1.mp hi
        simp only [Bool.not_eq_true', Bool.and_eq_false_iff, decide_eq_false_iff_not]
        omega

/-! ### the lines outside the tables -/

theorem cut_spec (k v : Str) (h : ':' ∉ k) : cut " : ".toList (k ++ " : ".toList ++ v) = (k, some v) := by
  have e : " : ".toList = [' ', ':', ' '] := rfl
  rw [e]
  induction k with
  | nil => simp [cut, List.isPrefixOf]
  | cons c cs ih =>
    have hc : c ≠ ':' := fun e => h (e ▸ List.mem_cons_self ..)
    have ih := ih (fun hm => h (List.mem_cons_of_mem _ hm))
    rw [List.cons_append, List.cons_append, cut, if_neg, ih]
    cases cs with
    | nil => simp [List.isPrefixOf]
    | cons d ds =>
      have hd : d ≠ ':' := fun e => h (e ▸ List.mem_cons_of_mem _ (List.mem_cons_self ..))
      simp [List.isPrefixOf, Ne.symm hd]

theorem cut_none (s : Str) (h : ¬ " : ".toList <:+: s) : ∃ a, cut " : ".toList s = (a, none) := by
  induction s with
  | nil => exact ⟨[], rfl⟩
  | cons c cs ih =>
    obtain ⟨a, ha⟩ := ih (fun hm => h (hm.trans (List.suffix_cons c cs).isInfix))
    refine ⟨c :: a, ?_⟩
    rw [cut, if_neg, ha]
    intro hp
    exact h (List.isPrefixOf_iff_prefix.mp hp).isInfix

/-- the entry under which a line is filed -/
def entry (i : Nat) : HeadLine → Str × Option Str
  | .blank => ("line".toList ++ digits i, some "blank".toList)
  | .plain s => (s, none)
  | .field k v => (k, some v)

/-- the entries of consecutive lines -/
def entries (i : Nat) : List HeadLine → List (Str × Option Str)
  | [] => []
  | h :: hs => entry i h :: entries (i + 1) hs

theorem not_contains {p s : Str} (h : ¬ p <:+: s) : containsSub p s = false := by
  rw [← Bool.not_eq_true, containsSub_iff]; exact h

theorem metaEntry_ordinary (i : Nat) (h : HeadLine) (ho : h.Ordinary) : metaEntry i h.text = .ok (entry i h) := by
  cases h with
  | blank => rfl
  | plain s =>
    unfold metaEntry HeadLine.text entry
    rw [if_neg ho.2.1, if_neg ho.1]
  | field k v =>
    have hc : ':' ∈ (HeadLine.field k v).text := by
      change ':' ∈ k ++ " : ".toList ++ v
      rw [List.append_assoc]; exact List.mem_append_right _ (by simp)
    have ht : containsSub "Technique".toList (HeadLine.field k v).text = false := not_contains ho.2.1
    have hk : cut " : ".toList (HeadLine.field k v).text = (k, some v) := cut_spec k v ho.1
    unfold metaEntry
    rw [if_pos hc, if_neg (by rw [ht]; simp), hk]
    rfl

theorem metaEntries_append (ls : List Str) (a b : List Nat) (x y : List (Str × Option Str))
    (ha : metaEntries ls a = .ok x) (hb : metaEntries ls b = .ok y) : metaEntries ls (a ++ b) = .ok (x ++ y) := by
  induction a generalizing x with
  | nil => cases ha; exact hb
  | cons i is ih =>
    rw [List.cons_append, metaEntries]
    rw [metaEntries] at ha
    cases he : metaEntry i (ls.getD i []) with
    | error e => rw [he] at ha; cases ha
    | ok e =>
      rw [he] at ha
      cases hes : metaEntries ls is with
      | error e' => rw [hes] at ha; cases ha
      | ok es =>
        rw [hes] at ha
        cases ha
        rw [ih es hes]
        rfl

theorem metaEntries_segment (front : List Str) (seg : List HeadLine) (back : List Str) (h : ∀ x ∈ seg, x.Ordinary) :
    metaEntries (front ++ (seg.map HeadLine.text ++ back)) (List.range' front.length seg.length) = .ok (entries front.length seg) := by
  induction seg generalizing front with
  | nil => rfl
  | cons x seg ih =>
    rw [List.length_cons, List.range'_succ, metaEntries]
    have e0 : (front ++ ((x :: seg).map HeadLine.text ++ back)).getD front.length [] = x.text := by
      simp [List.getD]
    rw [e0, metaEntry_ordinary _ x (h x (List.mem_cons_self ..))]
    have := ih (front ++ [x.text]) (fun y hy => h y (List.mem_cons_of_mem _ hy))
    rw [List.length_append, List.length_singleton, List.append_assoc, List.singleton_append] at this
    rw [List.map_cons, List.cons_append, this]
    rfl

/-! ### dictionaries -/

theorem set_new {κ ν : Type} [DecidableEq κ] (d : Dict κ ν) (k : κ) (v : ν) (h : k ∉ d.keys) : d.set k v = d ++ [(k, v)] := by
  induction d with
  | nil => rfl
  | cons e d ih =>
    obtain ⟨k', v'⟩ := e
    simp only [Dict.keys, List.map_cons, List.mem_cons, not_or] at h
    rw [Dict.set, if_neg (fun e => h.1 e.symm), ih h.2]
    rfl

theorem fold_set {κ ν : Type} [DecidableEq κ] (es : List (κ × ν)) (d : Dict κ ν) (h : (d.keys ++ es.map Prod.fst).Nodup) :
    es.foldl (fun d e => d.set e.1 e.2) d = d ++ es := by
  induction es generalizing d with
  | nil => simp
  | cons e es ih =>
    rw [List.foldl_cons]
    have hk : e.1 ∉ d.keys := by
      intro hm
      have := (List.nodup_append.mp h).2.2 e.1 hm e.1 (by simp)
      exact this rfl
    rw [set_new d e.1 e.2 hk, ih]
    · simp
    · simpa [Dict.keys] using h

theorem ofPairs_eq (es : List (Str × Option Str)) (h : (es.map Prod.fst).Nodup) : ofPairs es = es := by
  unfold ofPairs
  rw [fold_set es [] (by simpa [Dict.keys] using h), List.nil_append]

/-! ### distinct names -/

/-- the key under which a name is filed -/
def keyOf : Name → Str
  | .line i => "line".toList ++ digits i
  | .text s => s

theorem entries_keys (i : Nat) (hs : List HeadLine) : (entries i hs).map Prod.fst = (names i hs).map keyOf := by
  induction hs generalizing i with
  | nil => rfl
  | cons h hs ih =>
    rw [entries, names, List.map_cons, List.map_cons, ih]
    cases h <;> rfl

theorem names_text (i : Nat) (hs : List HeadLine) (ho : ∀ h ∈ hs, h.Ordinary) (s : Str) (h : Name.text s ∈ names i hs) :
    ¬ "line".toList <+: s ∧ ¬ "Technique".toList <:+: s := by
  induction hs generalizing i with
  | nil => cases h
  | cons x hs ih =>
    rw [names] at h
    have hx := ho x (List.mem_cons_self ..)
    rcases List.mem_cons.mp h with e | e
    · cases x with
      | blank => cases e
      | plain t => cases e; exact ⟨hx.2.2.2, hx.2.2.1⟩
      | field k v =>
        cases e
        refine ⟨hx.2.2.1, fun hm => hx.2.1 ?_⟩
        rw [List.append_assoc]
        exact hm.trans (List.prefix_append _ _).isInfix
    · exact ih (i + 1) (fun y hy => ho y (List.mem_cons_of_mem _ hy)) e

theorem keyOf_inj (l : List Name) (hl : ∀ s, Name.text s ∈ l → ¬ "line".toList <+: s) (h : l.Nodup) : (l.map keyOf).Nodup := by
  rw [List.nodup_map_iff_inj_on h]
  intro a ha b hb e
  cases a with
  | line i =>
    cases b with
    | line j => rw [digits_inj i j (List.append_cancel_left e)]
    | text t => exact absurd (show _ <+: keyOf (.text t) from e ▸ List.prefix_append _ _) (hl t hb)
  | text s =>
    cases b with
    | line j => exact absurd (show _ <+: keyOf (.text s) from e.symm ▸ List.prefix_append _ _) (hl s ha)
    | text t => exact congrArg Name.text e

/-! ### writing -/

theorem settingsRow (w : Nat) (k : Str) (seqs : List (Dict Str Str)) (line r : Str) (h : cells w k seqs = .ok r) :
    seqs.foldlM (fun (line : Str) s => match s.get? k with
      | none => Except.error Err.keyError
      | some v => .ok (line ++ ljust w v)) line = .ok (line ++ r) := by
  induction seqs generalizing line r with
  | nil => cases h; rw [List.append_nil]; rfl
  | cons s ss ih =>
    rw [cells] at h
    cases hv : s.get? k with
    | none => rw [hv] at h; cases h
    | some v =>
      simp only [hv] at h
      split at h
      · cases h
      · cases hr : cells w k ss with
        | error e => rw [hr] at h; cases h
        | ok r' =>
          rw [hr] at h
          cases h
          rw [List.foldlM_cons]
          simp only [hv]
          have := ih (line ++ ljust w v) r' hr
          rw [List.append_assoc] at this
          exact this

theorem settingsRows_eq (w : Nat) (keys : List Str) (seqs : List (Dict Str Str)) (rows : List Str)
    (h : seqsToRows w keys seqs = .ok rows) : settingsRows w keys seqs = .ok rows := by
  induction keys generalizing rows with
  | nil => cases h; rfl
  | cons k ks ih =>
    rw [seqsToRows] at h
    split at h
    · cases h
    · cases hr : cells w k seqs with
      | error e => rw [hr] at h; cases h
      | ok r =>
        rw [hr] at h
        cases hrs : seqsToRows w ks seqs with
        | error e => rw [hrs] at h; cases h
        | ok rs =>
          rw [hrs] at h
          cases h
          rw [settingsRows]
          rw [ih rs hrs]
          have := settingsRow w k seqs (ljust w k) r hr
          exact congrArg (fun x : Except Err Str => do
            let r ← x
            let rs' ← (Except.ok rs : Except Err (List Str))
            return r :: rs') this

theorem key_no_technique (i : Nat) (h : HeadLine) (ho : h.Ordinary) : containsSub "Technique_".toList (entry i h).1 = false := by
  apply not_contains
  have e : "Technique".toList <:+: "Technique_".toList := by decide
  cases h with
  | blank =>
    intro hm
    have hT : 'T' ∈ "line".toList ++ digits i := hm.subset (by decide)
    rcases List.mem_append.mp hT with h | h
    · exact absurd h (by decide)
    · exact digits_ne i 'T' (by decide) h
  | plain s => exact fun hm => ho.2.2.1 (e.trans hm)
  | field k v =>
    intro hm
    refine ho.2.1 (e.trans (hm.trans ?_))
    rw [List.append_assoc]
    exact (List.prefix_append _ _).isInfix

theorem value_no_path (i : Nat) (h : HeadLine) (ho : h.Ordinary) (d : Data) : unset (entry i h).2 d = d := by
  unfold unset
  cases h with
  | blank =>
    have h1 : ¬ some "blank".toList = some "Metadata".toList := by decide
    have h2 : ¬ some "blank".toList = some "Technique".toList := by decide
    rw [if_neg (show ¬ (entry i .blank).2 = _ from h1), if_neg (show ¬ (entry i .blank).2 = _ from h2)]
  | plain s => rfl
  | field k v =>
    rw [if_neg, if_neg]
    · intro e
      have e : v = "Technique".toList := Option.some.inj e
      exact ho.2.1 (e ▸ (List.suffix_append _ _).isInfix)
    · intro e
      have e : v = "Metadata".toList := Option.some.inj e
      exact ho.2.2.2.2 (e ▸ List.prefix_rfl)

theorem line_of_entry (i : Nat) (h : HeadLine) (ho : h.Ordinary) :
    (match (entry i h).2 with
      | none => (entry i h).1
      | some s => if s = "blank".toList then [] else (entry i h).1 ++ " : ".toList ++ s) = h.text := by
  cases h with
  | blank => rfl
  | plain s => rfl
  | field k v => exact if_neg ho.2.2.2.1

theorem blocks_head (w : Nat) (seg : List HeadLine) (ho : ∀ h ∈ seg, h.Ordinary) (i : Nat) (ks : List Str) (d : Data)
    (m : Dict Str (Option Str)) (hd : d.metadata = some m) (hm : ∀ e ∈ entries i seg, m.get? e.1 = some e.2)
    (rest : List Str) (hr : blocks w ks d = .ok rest) :
    blocks w ((entries i seg).map Prod.fst ++ ks) d = .ok (seg.map HeadLine.text ++ rest) := by
  induction seg generalizing i with
  | nil => exact hr
  | cons h hs ih =>
    have ho1 := ho h (List.mem_cons_self ..)
    have ih := ih (fun x hx => ho x (List.mem_cons_of_mem _ hx)) (i + 1) (fun e he => hm e (List.mem_cons_of_mem _ he))
    rw [entries, List.map_cons, List.cons_append, blocks]
    simp only [hd, hm (entry i h) (List.mem_cons_self ..), key_no_technique i h ho1, Bool.false_eq_true, if_false,
      value_no_path i h ho1]
    rw [ih]
    have := line_of_entry i h ho1
    exact congrArg (fun x : Str => (Except.ok (x :: (hs.map HeadLine.text ++ rest)) : Except Err (List Str))) this

/-! ### one technique -/

theorem rows_width (w : Nat) (keys : List Str) (seqs : List (Dict Str Str)) (rows : List Str)
    (h : seqsToRows w keys seqs = .ok rows) (hne : keys ≠ []) : maxLen rows = (seqs.length + 1) * w ∧ rows.length = keys.length := by
  obtain ⟨h1, h2⟩ := seqsToRows_ok w keys seqs rows h
  refine ⟨?_, by rw [h1, List.length_map]⟩
  apply maxLen_const
  · rw [h1]; simpa using hne
  · intro l hl
    rw [h1] at hl
    obtain ⟨k, hk, rfl⟩ := List.mem_map.mp hl
    rw [rowText_length, List.length_cons, column, List.length_map]
    intro v hv
    rcases List.mem_cons.mp hv with e | e
    · subst e; exact (h2 v hk).1
    · obtain ⟨s, hs, rfl⟩ := List.mem_map.mp e
      obtain ⟨v, hv, hlen⟩ := (h2 k hk).2 s hs
      rw [hv]; exact hlen

/-- the heading of a technique -/
theorem heading_number (n : Str) (h : ':' ∉ n) (ht : Trimmed n) : numberOf ("Technique : ".toList ++ n) = n := by
  unfold numberOf
  have e : "Technique : ".toList ++ n = "Technique ".toList ++ ':' :: (' ' :: n) := rfl
  rw [e, splitC_append ':' _ _ (by decide), splitC_none ':' (' ' :: n) (by
    intro hm
    rcases List.mem_cons.mp hm with e | e
    · exact absurd e (by decide)
    · exact h e)]
  have := strip_mid [' '] n [] (by decide) (by simp) ht.1 ht.2
  simpa using this

theorem heading_entry (i : Nat) (n : Str) (ht : Trimmed n) :
    metaEntry i ("Technique : ".toList ++ n) = .ok ("Technique_".toList ++ n, some n) := by
  unfold metaEntry
  have h1 : ':' ∈ "Technique : ".toList ++ n := List.mem_append_left _ (by decide)
  have h2 : containsSub "Technique".toList ("Technique : ".toList ++ n) = true := by
    rw [containsSub_iff]
    exact (show "Technique".toList <+: "Technique : ".toList by decide).isInfix.trans (List.prefix_append _ _).isInfix
  have h3 := cut_spec "Technique".toList n (by decide)
  have e : "Technique : ".toList ++ n = "Technique ".toList ++ ':' :: (' ' :: n) := rfl
  rw [if_pos h1, if_pos h2]
  rw [show "Technique".toList ++ " : ".toList ++ n = "Technique : ".toList ++ n from rfl] at h3
  rw [h3, e, split1_append ':' _ _ (by decide)]
  have := strip_mid [' '] n [] (by decide) (by simp) ht.1 ht.2
  rw [List.append_nil] at this
  exact congrArg (fun v => (Except.ok ("Technique_".toList ++ n, some v) : Except Err (Str × Option Str))) this

theorem readTechnique_eq (w len : Nat) (hw : 0 < w) (front : List Str) (n ty : Str) (hn : ':' ∉ n) (ht : Trimmed n)
    (keys : List Str) (hk0 : keys ≠ []) (hnd : keys.Nodup) (seqs : List (Dict Str Str)) (hk : ∀ s ∈ seqs, HasKeys keys s)
    (hkt : ∀ k ∈ keys, Trimmed k) (hvt : ∀ s ∈ seqs, ∀ kv ∈ s, Trimmed kv.2) (rows : List Str)
    (h : seqsToRows w keys seqs = .ok rows) (back : List Str)
    (hlen : rows.length + 1 = len ∨ (back = [] ∧ rows.length + 1 ≤ len)) (ts : Dict Str Technique) (hts : ts.get? n = none) :
    readTechnique w len (front ++ ("Technique : ".toList ++ n) :: ty :: (rows ++ back)) ts front.length =
      .ok (ts.set n { type := ty, steps := (List.range' 1 seqs.length).zip seqs }) := by
  obtain ⟨h1, h2⟩ := rows_width w keys seqs rows h hk0
  have hr := C35_round_trip_partial w hw keys hk0 hnd seqs hk hkt hvt rows h
  have e0 : (front ++ ("Technique : ".toList ++ n) :: ty :: (rows ++ back)).getD front.length [] = "Technique : ".toList ++ n := by
    simp [List.getD]
  have e1 : (front ++ ("Technique : ".toList ++ n) :: ty :: (rows ++ back))[front.length + 1]? = some ty := by
    rw [List.getElem?_append_right (by omega), Nat.add_sub_cancel_left]; rfl
  have e2 : ((front ++ ("Technique : ".toList ++ n) :: ty :: (rows ++ back)).take (front.length + 1 + len)).drop (front.length + 2) = rows := by
    have e : front ++ ("Technique : ".toList ++ n) :: ty :: (rows ++ back) =
        (front ++ ["Technique : ".toList ++ n, ty]) ++ (rows ++ back) := by simp
    have hl : (front ++ ["Technique : ".toList ++ n, ty]).length = front.length + 2 := by simp
    rcases hlen with hlen | ⟨hb, hlen⟩
    · rw [e, ← List.append_assoc, List.take_append_of_le_length (by rw [List.length_append, hl]; omega),
        List.take_of_length_le (by rw [List.length_append, hl]; omega), List.drop_append_of_le_length (by omega),
        List.drop_of_length_le (by omega), List.nil_append]
    · rw [e, hb, List.append_nil, List.take_of_length_le (by rw [List.length_append, hl]; omega),
        List.drop_append_of_le_length (by omega), List.drop_of_length_le (by omega), List.nil_append]
  have hne : rows ≠ [] := by
    intro e
    rw [e] at h2
    exact hk0 (List.length_eq_zero_iff.mp h2.symm)
  unfold readTechnique
  simp only [e0, e1, e2]
  rw [if_neg hne, if_neg (by rw [h1, Nat.mul_div_cancel _ hw]; omega), heading_number n hn ht, hts, hr]
  simp only
  rw [fold_set ((List.range' 1 seqs.length).zip seqs) [] (by
    rw [show Dict.keys ([] : Dict Nat (Dict Str Str)) = [] from rfl, List.nil_append,
      List.map_fst_zip (by simp)]
    exact List.nodup_range')]
  rfl

end Beep.Proof.Settings
