import Verif.Proof.Base
import Verif.Proof.Pandas
import Verif.Proof.Stats
import Verif.Proof.Rounding
import Verif.Spec.Pca
import Mathlib.Data.List.Forall2
/-
Lemmas about the principal component model.
-/
namespace Beep.Proof.Pca
open Beep Pandas Text Beep.Pca Spec.Pca

theorem mem_selected {cycles : List Int} {f : List Point} {p : Point} :
    p ∈ selected cycles f ↔ p ∈ f ∧ Wanted cycles p := by
  unfold selected Wanted
  simp only [List.mem_filter, decide_eq_true_eq, and_assoc]

theorem entry_notmem {cs : List Rat} {xs : List (Option Rat)} {v : Rat} (h : v ∉ cs) : entry cs xs v = none := by
  induction cs generalizing xs with
  | nil => simp [entry]
  | cons c cs ih =>
    cases xs with
    | nil => simp [entry]
    | cons x xs =>
      rw [entry, if_neg (fun e => h (by simp [e]))]
      exact ih (fun hm => h (by simp [hm]))

theorem entry_map {cs : List Rat} {g : Rat → Option Rat} {v : Rat} (h : v ∈ cs) :
    entry cs (cs.map g) v = g v := by
  induction cs with
  | nil => simp at h
  | cons c cs ih =>
    rw [List.map_cons, entry]
    by_cases e : c = v
    · rw [if_pos e, e]
    · rw [if_neg e]
      exact ih (by rcases List.mem_cons.mp h with h | h; exact absurd h.symm e; exact h)

theorem entry_get {cs : List Rat} {xs : List (Option Rat)} (hn : cs.Nodup) {j : Nat} {v : Rat} {x : Option Rat}
    (hc : cs[j]? = some v) (hx : xs[j]? = some x) : entry cs xs v = x := by
  induction cs generalizing xs j with
  | nil => simp at hc
  | cons c cs ih =>
    cases xs with
    | nil => simp at hx
    | cons y ys =>
      cases j with
      | zero => simp at hc hx; simp [entry, hc, hx]
      | succ j =>
        simp at hc hx
        rw [entry, if_neg]
        · exact ih (List.nodup_cons.mp hn).2 hc hx
        · rintro rfl
          exact (List.nodup_cons.mp hn).1 (List.mem_of_getElem? hc)

/-- labels of the rows: file and cycle -/
def Earlier (a b : Nat × Int) : Prop := a.1 < b.1 ∨ (a.1 = b.1 ∧ a.2 < b.2)

structure Inv (cycles : List Int) (files : List (List Point)) (t : Frame) (labels : List (Nat × Int)) : Prop where
  nodup : t.columns.Nodup
  cols : ∀ v, v ∈ t.columns ↔ ∃ f ∈ files, ∃ p ∈ f, Wanted cycles p ∧ p.pos = v
  order : labels.Pairwise Earlier
  mem : ∀ i c, (i, c) ∈ labels ↔ ∃ f, files[i]? = some f ∧ ∃ p ∈ f, Wanted cycles p ∧ p.cycle = c
  rows : List.Forall₂ (fun (l : Nat × Int) r => r.length = t.columns.length ∧ ∃ f, files[l.1]? = some f ∧
    ∀ v q, entry t.columns r v = some q ↔
      ∃ p ∈ f, Wanted cycles p ∧ p.cycle = l.2 ∧ p.pos = v ∧ p.qty = some q) labels t.rows

theorem pivot_ok {ps : List Point} {t : Frame} (h : pivot ps = .ok t) :
    (ps.map (fun p => (p.cycle, p.pos))).Nodup ∧ t.columns.Nodup ∧ (∀ v, v ∈ t.columns ↔ ∃ p ∈ ps, p.pos = v) ∧
    List.Forall₂ (fun c r => r.length = t.columns.length ∧
      ∀ v q, entry t.columns r v = some q ↔ ∃ p ∈ ps, p.cycle = c ∧ p.pos = v ∧ p.qty = some q)
      (groupKeys (ps.map Point.cycle)) t.rows := by
  unfold pivot at h
  split at h
  case isFalse => cases h
  rename_i hn
  cases h
  have hmem : ∀ v, v ∈ sortBy (fun a b : Rat => decide (a ≤ b)) (unique (ps.map Point.pos)) ↔ ∃ p ∈ ps, p.pos = v := by
    intro v; rw [mem_sortBy, mem_unique, List.mem_map]
  refine ⟨hn, ?_, hmem, ?_⟩
  · exact (sortBy_perm _ _).nodup_iff.mpr (nodup_unique _)
  · rw [List.forall₂_map_right_iff]
    apply List.forall₂_same.mpr
    intro c _
    refine ⟨by simp, ?_⟩
    intro v q
    by_cases hv : v ∈ sortBy (fun a b : Rat => decide (a ≤ b)) (unique (ps.map Point.pos))
    · rw [entry_map hv]
      constructor
      · intro he
        rcases hf : ps.find? (fun p => decide (p.cycle = c ∧ p.pos = v)) with _ | p
        · rw [hf] at he; cases he
        · rw [hf] at he
          have h1 := List.find?_some hf
          simp at h1
          exact ⟨p, List.mem_of_find?_eq_some hf, h1.1, h1.2, he⟩
      · rintro ⟨p, hp, hc, hv', hq⟩
        rcases hf : ps.find? (fun p => decide (p.cycle = c ∧ p.pos = v)) with _ | p'
        · have := List.find?_eq_none.mp hf p hp
          simp [hc, hv'] at this
        · have h1 := List.find?_some hf
          simp at h1
          have : p' = p := List.inj_on_of_nodup_map hn (List.mem_of_find?_eq_some hf) hp
            (by simp [h1.1, h1.2, hc, hv'])
          rw [hf, this]; exact hq
    · rw [entry_notmem hv]
      constructor
      · intro he; cases he
      · rintro ⟨p, hp, _, hv', _⟩
        exact absurd ((hmem v).mpr ⟨p, hp, hv'⟩) hv

theorem entry_wide {cs cols : List Rat} (hsub : ∀ v ∈ cs, v ∈ cols) (r : List (Option Rat)) (v : Rat) :
    entry cols (cols.map (entry cs r)) v = entry cs r v := by
  by_cases hv : v ∈ cols
  · rw [entry_map hv]
  · rw [entry_notmem hv, entry_notmem (fun h => hv (hsub v h))]

theorem inv_step {cycles : List Int} {files : List (List Point)} {f : List Point} {acc t : Frame}
    {labels : List (Nat × Int)} (hi : Inv cycles files acc labels) (ht : pivot (selected cycles f) = .ok t) :
    Inv cycles (files ++ [f]) (concat acc t)
      (labels ++ (groupKeys ((selected cycles f).map Point.cycle)).map (fun c => (files.length, c))) := by
  obtain ⟨_, hn, hc, hr⟩ := pivot_ok ht
  have hlt : ∀ l ∈ labels, l.1 < files.length := by
    rintro ⟨i, c⟩ hm
    obtain ⟨f', hf, _⟩ := (hi.mem i c).mp hm
    exact (List.getElem?_eq_some_iff.mp hf).1
  have hsubA : ∀ v ∈ acc.columns, v ∈ (concat acc t).columns := fun v hv => by simp [concat, hv]
  have hsubT : ∀ v ∈ t.columns, v ∈ (concat acc t).columns := fun v hv => by
    by_cases h : v ∈ acc.columns <;> simp [concat, hv, h]
  refine ⟨?_, ?_, ?_, ?_, ?_⟩
  · refine List.Nodup.append hi.nodup (hn.filter _) ?_
    intro v hv hv'
    simp at hv'
    exact hv'.2 hv
  · intro v
    have : v ∈ (concat acc t).columns ↔ v ∈ acc.columns ∨ v ∈ t.columns := by
      constructor
      · intro h; simp [concat] at h; tauto
      · rintro (h | h); exact hsubA v h; exact hsubT v h
    rw [this, hi.cols, hc]
    constructor
    · rintro (⟨g, hg, p, hp, hw, e⟩ | ⟨p, hp, e⟩)
      · exact ⟨g, by simp [hg], p, hp, hw, e⟩
      · exact ⟨f, by simp, p, (mem_selected.mp hp).1, (mem_selected.mp hp).2, e⟩
    · rintro ⟨g, hg, p, hp, hw, e⟩
      rcases List.mem_append.mp hg with hg | hg
      · exact Or.inl ⟨g, hg, p, hp, hw, e⟩
      · simp at hg; subst hg
        exact Or.inr ⟨p, mem_selected.mpr ⟨hp, hw⟩, e⟩
  · rw [List.pairwise_append]
    refine ⟨hi.order, ?_, ?_⟩
    · rw [List.pairwise_map]
      exact (sorted_groupKeys _).imp (fun h => Or.inr ⟨rfl, h⟩)
    · rintro a ha b hb
      obtain ⟨c, _, rfl⟩ := List.mem_map.mp hb
      exact Or.inl (hlt a ha)
  · intro i c
    rw [List.mem_append, hi.mem]
    constructor
    · rintro (⟨g, hg, h⟩ | h)
      · refine ⟨g, ?_, h⟩
        rw [List.getElem?_append_left (List.getElem?_eq_some_iff.mp hg).1]; exact hg
      · obtain ⟨c', hc', e⟩ := List.mem_map.mp h
        cases e
        obtain ⟨p, hp, e⟩ := List.mem_map.mp (mem_groupKeys.mp hc')
        exact ⟨f, by simp, p, (mem_selected.mp hp).1, (mem_selected.mp hp).2, e⟩
    · rintro ⟨g, hg, p, hp, hw, e⟩
      by_cases hlt' : i < files.length
      · rw [List.getElem?_append_left hlt'] at hg
        exact Or.inl ⟨g, hg, p, hp, hw, e⟩
      · rw [List.getElem?_append_right (by omega)] at hg
        have h0 : i - files.length = 0 := by
          by_contra hne
          rw [List.getElem?_eq_none (by simp; omega)] at hg; cases hg
        rw [h0] at hg; simp at hg; subst hg
        refine Or.inr (List.mem_map.mpr ⟨c, mem_groupKeys.mpr (List.mem_map.mpr ⟨p, mem_selected.mpr ⟨hp, hw⟩, e⟩), ?_⟩)
        have : i = files.length := by omega
        rw [this]
  · refine List.rel_append ?_ ?_
    · rw [List.forall₂_map_right_iff]
      refine hi.rows.imp ?_
      rintro l r ⟨_, g, hg, hq⟩
      refine ⟨by simp [concat], g, ?_, ?_⟩
      · rw [List.getElem?_append_left (List.getElem?_eq_some_iff.mp hg).1]; exact hg
      · intro v q
        have := entry_wide hsubA r v
        simp only [concat] at this ⊢
        rw [this]; exact hq v q
    · rw [List.forall₂_map_right_iff, List.forall₂_map_left_iff]
      refine hr.imp ?_
      rintro c r ⟨_, hq⟩
      refine ⟨by simp [concat], f, by simp, ?_⟩
      intro v q
      have := entry_wide hsubT r v
      simp only [concat] at this ⊢
      rw [this, hq]
      constructor
      · rintro ⟨p, hp, h⟩; exact ⟨p, (mem_selected.mp hp).1, (mem_selected.mp hp).2, h⟩
      · rintro ⟨p, hp, hw, h⟩; exact ⟨p, mem_selected.mpr ⟨hp, hw⟩, h⟩

theorem inv_from {cycles : List Int} {fs : List (List Point)} :
    ∀ {pre : List (List Point)} {acc t : Frame} {labels : List (Nat × Int)}, Inv cycles pre acc labels →
    pivotFrom cycles acc fs = .ok t → ∃ labels', Inv cycles (pre ++ fs) t labels' := by
  induction fs with
  | nil => intro pre acc t labels hi h; cases h; exact ⟨labels, by simpa using hi⟩
  | cons f fs ih =>
    intro pre acc t labels hi h
    rw [pivotFrom] at h
    split at h
    · cases h
    · rename_i t' ht
      obtain ⟨l, hl⟩ := ih (inv_step hi ht) h
      exact ⟨l, by simpa using hl⟩

theorem pivotFrom_error {cycles : List Int} {fs : List (List Point)} {acc : Frame} {e : Err} :
    pivotFrom cycles acc fs = .error e ↔
      e = .valueError ∧ ∃ f ∈ fs, ¬ ((selected cycles f).map (fun p => (p.cycle, p.pos))).Nodup := by
  induction fs generalizing acc with
  | nil => simp [pivotFrom]
  | cons f fs ih =>
    rw [pivotFrom]
    by_cases hn : ((selected cycles f).map (fun p => (p.cycle, p.pos))).Nodup
    · simp only [pivot, if_pos hn]
      rw [ih]
      simp [hn]
    · simp only [pivot, if_neg hn]
      constructor
      · intro h; cases h; exact ⟨rfl, f, by simp, hn⟩
      · rintro ⟨rfl, _⟩; rfl

theorem selected_dup {cycles : List Int} {f : List Point} :
    ¬ ((selected cycles f).map (fun p => (p.cycle, p.pos))).Nodup ↔
      ∃ (i j : Nat) (p p' : Point), i < j ∧ f[i]? = some p ∧ f[j]? = some p' ∧ Wanted cycles p ∧ Wanted cycles p' ∧
        p.cycle = p'.cycle ∧ p.pos = p'.pos := by
  have hsel : selected cycles f =
      f.filter (fun p => decide (p.stepType = "discharge".toList) && decide (p.cycle ∈ cycles)) := by
    unfold selected; rw [List.filter_filter]; congr 1; funext p; exact Bool.and_comm _ _
  rw [hsel, List.Nodup, List.pairwise_map, List.pairwise_filter, List.pairwise_iff_getElem]
  constructor
  · intro h
    push Not at h
    obtain ⟨i, j, hi, hj, hij, h1, h2, h3⟩ := h
    simp only [Bool.and_eq_true, decide_eq_true_eq] at h1 h2
    simp only [Prod.mk.injEq] at h3
    exact ⟨i, j, f[i], f[j], hij, by simp, by simp, h1, h2, h3.1, h3.2⟩
  · rintro ⟨i, j, p, p', hij, hi, hj, hw, hw', hc, hp⟩ h
    obtain ⟨hi', rfl⟩ := List.getElem?_eq_some_iff.mp hi
    obtain ⟨hj', rfl⟩ := List.getElem?_eq_some_iff.mp hj
    exact h i j hi' hj' hij (by simp only [Bool.and_eq_true, decide_eq_true_eq]; exact hw)
      (by simp only [Bool.and_eq_true, decide_eq_true_eq]; exact hw') (by simp [hc, hp])

/-! ### Components -/

theorem firstAbove_none {thr : Rat} {rs : List (Option Rat)} {i : Nat} : firstAbove thr none i rs = none := by
  induction rs generalizing i with
  | nil => rfl
  | cons r rs ih => cases r <;> simp [firstAbove, ih]

theorem firstAbove_iff {thr : Rat} {rs : List (Option Rat)} {a : Rat} {i k : Nat} :
    firstAbove thr (some a) i rs = some k ↔
      ∃ n, k = i + n ∧ (∃ s, Explains rs (n + 1) s ∧ a + s > thr) ∧
        ∀ m, m ≤ n → 0 < m → ∃ s, Explains rs m s ∧ a + s ≤ thr := by
  induction rs generalizing a i with
  | nil =>
    simp only [firstAbove]
    constructor
    · intro h; cases h
    · rintro ⟨n, _, ⟨s, ⟨xs, h1, h2, _⟩, _⟩, _⟩
      cases xs <;> simp at h1 h2
  | cons r rs ih =>
    have hcons : ∀ (x : Rat) (m : Nat) (s : Rat), Explains (some x :: rs) (m + 1) s ↔ Explains rs m (s - x) := by
      intro x m s
      constructor
      · rintro ⟨xs, h1, h2, h3⟩
        cases xs with
        | nil => simp at h2
        | cons y ys =>
          simp at h1 h2
          refine ⟨ys, h1.2, h2, ?_⟩
          rw [h3, ← h1.1]; simp
      · rintro ⟨xs, h1, h2, h3⟩
        exact ⟨x :: xs, by simp [h1], by simp [h2], by simp [← h3]⟩
    have hzero : ∀ s, Explains rs 0 s ↔ s = 0 := by
      intro s
      constructor
      · rintro ⟨xs, _, h2, h3⟩
        have : xs = [] := List.length_eq_zero_iff.mp h2
        rw [h3, this]; rfl
      · rintro rfl; exact ⟨[], by simp, rfl, rfl⟩
    cases r with
    | none =>
      simp only [firstAbove, firstAbove_none]
      constructor
      · intro h; cases h
      · rintro ⟨n, _, ⟨s, ⟨xs, h1, h2, _⟩, _⟩, _⟩
        cases xs <;> simp at h1 h2
    | some x =>
      simp only [firstAbove]
      by_cases hx : a + x > thr
      · rw [if_pos hx]
        constructor
        · intro h; cases h
          refine ⟨0, rfl, ⟨x, (hcons x 0 x).mpr ((hzero _).mpr (by ring)), hx⟩, ?_⟩
          intro m h1 h2; omega
        · rintro ⟨n, rfl, _, hall⟩
          cases n with
          | zero => rfl
          | succ n =>
            obtain ⟨s, hs, hle⟩ := hall 1 (by omega) (by omega)
            have := (hzero _).mp ((hcons x 0 s).mp hs)
            have : s = x := by linarith
            subst this
            exact absurd hx (not_lt.mpr hle)
      · rw [if_neg hx, ih]
        constructor
        · rintro ⟨n, rfl, ⟨s, hs, hgt⟩, hall⟩
          refine ⟨n + 1, by omega, ⟨x + s, (hcons x (n + 1) _).mpr (by simpa using hs), by linarith⟩, ?_⟩
          intro m hm hpos
          obtain ⟨m, rfl⟩ : ∃ m', m = m' + 1 := ⟨m - 1, by omega⟩
          cases m with
          | zero => exact ⟨x, (hcons x 0 x).mpr ((hzero _).mpr (by ring)), not_lt.mp hx⟩
          | succ m =>
            obtain ⟨s', hs', hle⟩ := hall (m + 1) (by omega) (by omega)
            exact ⟨x + s', (hcons x (m + 1) _).mpr (by simpa using hs'), by linarith⟩
        · rintro ⟨n, rfl, ⟨s, hs, hgt⟩, hall⟩
          cases n with
          | zero =>
            have := (hzero _).mp ((hcons x 0 s).mp hs)
            have : s = x := by linarith
            subst this
            exact absurd hgt hx
          | succ n =>
            refine ⟨n, by omega, ⟨s - x, (hcons x (n + 1) s).mp hs, by linarith⟩, ?_⟩
            intro m hm hpos
            obtain ⟨s', hs', hle⟩ := hall (m + 1) (by omega) (by omega)
            exact ⟨s' - x, (hcons x m s').mp hs', by linarith⟩

/-! ### Percentiles -/

theorem insertBy_map {α β : Type} {le : α → α → Bool} {le' : β → β → Bool} {g : α → β}
    (h : ∀ a b, le' (g a) (g b) = le a b) (a : α) (l : List α) :
    insertBy le' (g a) (l.map g) = (insertBy le a l).map g := by
  induction l with
  | nil => rfl
  | cons b bs ih =>
    simp only [List.map_cons, insertBy, h]
    split <;> simp [ih]

theorem sortBy_map {α β : Type} {le : α → α → Bool} {le' : β → β → Bool} {g : α → β}
    (h : ∀ a b, le' (g a) (g b) = le a b) (l : List α) :
    sortBy le' (l.map g) = (sortBy le l).map g := by
  induction l with
  | nil => rfl
  | cons a as ih => simp only [List.map_cons, sortBy, ih, insertBy_map h]

def sorted (l : List Rat) : List Rat := sortBy (fun a b : Rat => decide (a ≤ b)) l

theorem sorted_perm (l : List Rat) : (sorted l).Perm l := sortBy_perm _ _

theorem sorted_length (l : List Rat) : (sorted l).length = l.length := (sorted_perm l).length_eq

theorem sorted_sorted (l : List Rat) : (sorted l).Pairwise (· ≤ ·) := by
  have := pairwise_sortBy (fun a b : Rat => decide (a ≤ b)) (by intro a b c; simp; exact le_trans)
    (by intro a b; simp; exact le_total a b) l
  exact this.imp (fun h => by simpa using h)

theorem nth_mono {s : List Rat} (hs : s.Pairwise (· ≤ ·)) {i j : Nat} (hij : i ≤ j) (hj : j < s.length) :
    nth s i ≤ nth s j := by
  rcases Nat.lt_or_ge i j with h | h
  · have := List.pairwise_iff_getElem.mp hs i j (by omega) hj h
    simpa [nth, List.getD_eq_getElem?_getD, List.getElem?_eq_getElem, hj, show i < s.length by omega] using this
  · have : i = j := by omega
    rw [this]

theorem nth_map {s : List Rat} {m d : Rat} {i : Nat} (hi : i < s.length) :
    nth (s.map (fun e => (e - m) / d)) i = (nth s i - m) / d := by
  simp [nth, List.getD_eq_getElem?_getD, List.getElem?_eq_getElem, hi]

/-- the place, its whole part and the next place -/
theorem place_bounds {n : Nat} (hn : 0 < n) {q : Rat} (h0 : 0 ≤ q) (h1 : q ≤ 100) :
    0 ≤ q / 100 * ((n : Rat) - 1) ∧ q / 100 * ((n : Rat) - 1) ≤ (n : Rat) - 1 := by
  have hn' : (1 : Rat) ≤ n := by exact_mod_cast hn
  constructor
  · apply mul_nonneg
    · linarith
    · linarith
  · have : q / 100 ≤ 1 := by linarith
    nlinarith

theorem floor_facts {h : Rat} (h0 : 0 ≤ h) : ((h.floor.toNat : Nat) : Rat) ≤ h ∧ h < (h.floor.toNat : Nat) + 1 := by
  have e : ((h.floor.toNat : Nat) : Int) = ⌊h⌋ := by
    rw [Int.toNat_of_nonneg]
    · rfl
    · exact Int.floor_nonneg.mpr h0
  have e' : ((h.floor.toNat : Nat) : Rat) = ((⌊h⌋ : Int) : Rat) := by exact_mod_cast congrArg (Int.cast (R := Rat)) e
  rw [e']
  exact ⟨Int.floor_le h, Int.lt_floor_add_one h⟩

theorem floor_lt {n : Nat} {h : Rat} (h0 : 0 ≤ h) (h1 : h ≤ (n : Rat) - 1) : h.floor.toNat < n := by
  have := (floor_facts h0).1
  have : ((h.floor.toNat : Nat) : Rat) < n := by linarith
  exact_mod_cast this

theorem atPlace_bounds {s : List Rat} (hs : s.Pairwise (· ≤ ·)) {h : Rat} (h0 : 0 ≤ h)
    (h1 : h ≤ (s.length : Rat) - 1) :
    nth s h.floor.toNat ≤ atPlace s h ∧ atPlace s h ≤ nth s (min (h.floor.toNat + 1) (s.length - 1)) := by
  have hf := floor_facts h0
  have hlt := floor_lt h0 h1
  have hm : nth s h.floor.toNat ≤ nth s (min (h.floor.toNat + 1) (s.length - 1)) :=
    nth_mono hs (by omega) (by omega)
  unfold atPlace
  constructor <;> nlinarith

theorem atPlace_mono {s : List Rat} (hs : s.Pairwise (· ≤ ·)) {h h' : Rat} (h0 : 0 ≤ h) (hh : h ≤ h')
    (h1 : h' ≤ (s.length : Rat) - 1) : atPlace s h ≤ atPlace s h' := by
  have b := atPlace_bounds hs h0 (le_trans hh h1)
  have b' := atPlace_bounds hs (le_trans h0 hh) h1
  have hf := floor_facts h0
  have hf' := floor_facts (le_trans h0 hh)
  have hlt' := floor_lt (le_trans h0 hh) h1
  rcases Nat.lt_trichotomy h.floor.toNat h'.floor.toNat with hlt | heq | hgt
  · refine le_trans b.2 (le_trans (nth_mono hs ?_ hlt') b'.1)
    omega
  · have hm : nth s h.floor.toNat ≤ nth s (min (h.floor.toNat + 1) (s.length - 1)) :=
      nth_mono hs (by omega) (by omega)
    unfold atPlace
    rw [← heq]
    nlinarith
  · have : ((h'.floor.toNat : Nat) : Rat) + 1 ≤ (h.floor.toNat : Nat) := by exact_mod_cast hgt
    linarith

theorem percentile_mono {l : List Rat} (hl : l ≠ []) {q q' : Rat} (h0 : 0 ≤ q) (hq : q ≤ q') (h1 : q' ≤ 100) :
    percentile q l ≤ percentile q' l := by
  have hn : 0 < l.length := List.length_pos_of_ne_nil hl
  have hn' : (1 : Rat) ≤ l.length := by exact_mod_cast hn
  refine atPlace_mono (sorted_sorted l) (place_bounds hn h0 (le_trans hq h1)).1 ?_ ?_
  · have : q / 100 ≤ q' / 100 := by linarith
    nlinarith
  · have := (place_bounds hn (le_trans h0 hq) h1).2
    have e : ((sorted l).length : Rat) = l.length := by
      exact_mod_cast sorted_length l
    rw [e]; exact this

theorem percentile_is {l : List Rat} (hl : l ≠ []) {q : Rat} (h0 : 0 ≤ q) (h1 : q ≤ 100) :
    IsPercentile q l (percentile q l) := by
  have hn : 0 < l.length := List.length_pos_of_ne_nil hl
  obtain ⟨p0, p1⟩ := place_bounds hn h0 h1
  have hf := floor_facts p0
  have hlt := floor_lt p0 p1
  refine ⟨sorted l, sorted_perm l, sorted_sorted l,
    (q / 100 * ((l.length : Rat) - 1)).floor.toNat, nth (sorted l) (q / 100 * ((l.length : Rat) - 1)).floor.toNat, ?_, ?_⟩
  · rw [List.getElem?_eq_getElem (by rw [sorted_length]; exact hlt)]
    simp [nth, List.getD_eq_getElem?_getD, List.getElem?_eq_getElem, sorted_length, hlt]
  · unfold percentile
    generalize hh : q / 100 * ((l.length : Rat) - 1) = h at *
    by_cases he : h = (h.floor.toNat : Nat)
    · refine Or.inl ⟨he, ?_⟩
      unfold atPlace
      have : h - (h.floor.toNat : Nat) = 0 := by linarith
      rw [this]
      show nth (sorted l) _ + _ = _
      ring
    · have hlt2 : h.floor.toNat + 1 < l.length := by
        have h3 : ((h.floor.toNat : Nat) : Rat) < h := lt_of_le_of_ne hf.1 (fun e => he e.symm)
        have : ((h.floor.toNat + 1 : Nat) : Rat) < l.length := by push_cast; linarith
        exact_mod_cast this
      refine Or.inr ⟨nth (sorted l) (h.floor.toNat + 1), ?_, lt_of_le_of_ne hf.1 (fun e => he e.symm), hf.2, ?_⟩
      · rw [List.getElem?_eq_getElem (by rw [sorted_length]; exact hlt2)]
        simp [nth, List.getD_eq_getElem?_getD, List.getElem?_eq_getElem, sorted_length, hlt2]
      · unfold atPlace
        have e : min (h.floor.toNat + 1) ((sortBy (fun a b : Rat => decide (a ≤ b)) l).length - 1) = h.floor.toNat + 1 := by
          have := sorted_length l
          unfold sorted at this
          rw [this]; omega
        rw [e]; rfl

theorem isPercentile_eq {l : List Rat} (hl : l ≠ []) {q v : Rat} (h0 : 0 ≤ q) (h1 : q ≤ 100)
    (hv : IsPercentile q l v) : v = percentile q l := by
  obtain ⟨s, hp, hs, i, a, ha, hcase⟩ := hv
  obtain ⟨s', hp', hs', i', a', ha', hcase'⟩ := percentile_is hl h0 h1
  have hss : s = s' := Proof.Stats.sorted_unique hp hp' hs hs'
  subst hss
  generalize q / 100 * ((l.length : Rat) - 1) = h at *
  have hii : i = i' := by
    have b : (i : Rat) ≤ h ∧ h < i + 1 := by
      rcases hcase with ⟨e, _⟩ | ⟨_, _, e1, e2, _⟩
      · rw [e]; constructor <;> linarith
      · exact ⟨le_of_lt e1, e2⟩
    have b' : (i' : Rat) ≤ h ∧ h < i' + 1 := by
      rcases hcase' with ⟨e, _⟩ | ⟨_, _, e1, e2, _⟩
      · rw [e]; constructor <;> linarith
      · exact ⟨le_of_lt e1, e2⟩
    have l1 : (i : Rat) < (i' : Rat) + 1 := by linarith [b.1, b'.2]
    have l2 : (i' : Rat) < (i : Rat) + 1 := by linarith [b.2, b'.1]
    have l1' : i < i' + 1 := by exact_mod_cast l1
    have l2' : i' < i + 1 := by exact_mod_cast l2
    omega
  subst hii
  rw [ha] at ha'; cases ha'
  rcases hcase with ⟨e, hv⟩ | ⟨b, hb, e1, e2, hv⟩ <;> rcases hcase' with ⟨e', hv'⟩ | ⟨b', hb', e1', e2', hv'⟩
  · rw [hv, hv']
  · rw [e] at e1'; exact absurd e1' (lt_irrefl _)
  · rw [e'] at e1; exact absurd e1 (lt_irrefl _)
  · rw [hb] at hb'; cases hb'; rw [hv, hv']

theorem percentile_scale {l : List Rat} (hl : l ≠ []) {q m d : Rat} (hd : 0 < d) (h0 : 0 ≤ q) (h1 : q ≤ 100) :
    percentile q (l.map (fun e => (e - m) / d)) = (percentile q l - m) / d := by
  have hn : 0 < l.length := List.length_pos_of_ne_nil hl
  unfold percentile
  rw [sortBy_map (le := fun a b : Rat => decide (a ≤ b)) (g := fun e => (e - m) / d), List.length_map]
  · obtain ⟨p0, p1⟩ := place_bounds hn h0 h1
    generalize q / 100 * ((l.length : Rat) - 1) = h at *
    have hlt := floor_lt p0 p1
    have hlen : (sortBy (fun a b : Rat => decide (a ≤ b)) l).length = l.length := sorted_length l
    unfold atPlace
    rw [nth_map (by rw [hlen]; exact hlt), nth_map (by rw [List.length_map, hlen]; omega), List.length_map]
    field_simp
    ring
  · intro a b
    have : (a - m) / d ≤ (b - m) / d ↔ a ≤ b := by
      rw [div_le_div_iff_of_pos_right hd]; constructor <;> intro h <;> linarith
    simp [this]

end Beep.Proof.Pca
