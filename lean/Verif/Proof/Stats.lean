import Verif.Proof.Base
import Verif.Proof.Pandas
import Verif.Spec.Stats
import Verif.Model.Table
/-
The pandas functions compute mean and median.
-/
namespace Beep.Proof.Stats
open Beep Pandas Table Spec.Stats

theorem countN_eq (vs : List (Option Rat)) : countN vs = (present vs).length := by
  induction vs with
  | nil => rfl
  | cons v vs ih =>
    cases v with
    | none => simpa [countN, present] using ih
    | some v => simpa [countN, present] using ih

theorem sumN_eq (vs : List (Option Rat)) : sumN vs = (present vs).sum := by
  induction vs with
  | nil => rfl
  | cons v vs ih =>
    cases v with
    | none => simpa [sumN, present] using ih
    | some v => simpa [sumN, present] using ih

theorem meanN_iff (vs : List (Option Rat)) (m : Rat) : meanN vs = some m ↔ IsMean (present vs) m := by
  unfold meanN IsMean
  rw [countN_eq, sumN_eq]
  by_cases h : (present vs).length = 0
  · rw [if_pos h]
    rw [List.length_eq_zero_iff] at h
    simp [h]
  · rw [if_neg h, Option.some.injEq]
    have h0 : ((present vs).length : Rat) ≠ 0 := by exact_mod_cast h
    have hne : present vs ≠ [] := by intro e; rw [e] at h; simp at h
    rw [div_eq_iff h0]
    constructor
    · intro e; exact ⟨hne, e.symm⟩
    · intro e; exact e.2.symm

/-- sorted in ascending order -/
def sorted (l : List Rat) : List Rat := sortBy (fun a b => decide (a ≤ b)) l

theorem sorted_perm (l : List Rat) : (sorted l).Perm l := sortBy_perm _ _

theorem sorted_pairwise (l : List Rat) : (sorted l).Pairwise (· ≤ ·) := by
  have := pairwise_sortBy (fun a b : Rat => decide (a ≤ b))
    (by intro a b c h1 h2; simp only [decide_eq_true_eq] at *; exact le_trans h1 h2)
    (by intro a b; simp only [Bool.or_eq_true, decide_eq_true_eq]; exact le_total a b) l
  exact this.imp (by intro a b h; simpa using h)

theorem sorted_unique {l s t : List Rat} (hs : s.Perm l) (ht : t.Perm l) (ps : s.Pairwise (· ≤ ·))
    (pt : t.Pairwise (· ≤ ·)) : s = t :=
  List.Perm.eq_of_pairwise (fun a b _ _ h1 h2 => le_antisymm h1 h2) ps pt (hs.trans ht.symm)

theorem isMedian_sorted (l : List Rat) (m : Rat) : IsMedian l m ↔
    (∃ k : Nat, (sorted l).length = 2 * k + 1 ∧ (sorted l)[k]? = some m) ∨
     (∃ (k : Nat) (a b : Rat), (sorted l).length = 2 * k + 2 ∧ (sorted l)[k]? = some a ∧
       (sorted l)[k + 1]? = some b ∧ m = (a + b) / 2) := by
  constructor
  · rintro ⟨s, h1, h2, h3⟩
    rw [← sorted_unique h1 (sorted_perm l) h2 (sorted_pairwise l)]
    exact h3
  · intro h
    exact ⟨sorted l, sorted_perm l, sorted_pairwise l, h⟩

theorem isMedian_unique {l : List Rat} {m m' : Rat} (h : IsMedian l m) (h' : IsMedian l m') : m = m' := by
  rw [isMedian_sorted] at h h'
  rcases h with ⟨k, h1, h2⟩ | ⟨k, a, b, h1, h2, h3, h4⟩ <;> rcases h' with ⟨j, g1, g2⟩ | ⟨j, c, d, g1, g2, g3, g4⟩
  · have : k = j := by omega
    subst this
    rw [h2] at g2; injection g2
  · omega
  · omega
  · have : k = j := by omega
    subst this
    rw [h2] at g2; rw [h3] at g3
    injection g2 with g2; injection g3 with g3
    rw [h4, g4, g2, g3]

theorem isMedian_perm {l k : List Rat} (h : l.Perm k) (m : Rat) : IsMedian l m ↔ IsMedian k m := by
  constructor
  · rintro ⟨s, h1, h2⟩; exact ⟨s, h1.trans h, h2⟩
  · rintro ⟨s, h1, h2⟩; exact ⟨s, h1.trans h.symm, h2⟩

/-- both implementations of the median -/
theorem middle_iff (s : List Rat) (m : Rat) :
    (if s.length % 2 = 1 then s[s.length / 2]?
     else match s[s.length / 2 - 1]?, s[s.length / 2]? with
      | some a, some b => some ((a + b) / 2)
      | _, _ => none) = some m ↔
    (∃ k : Nat, s.length = 2 * k + 1 ∧ s[k]? = some m) ∨
     (∃ (k : Nat) (a b : Rat), s.length = 2 * k + 2 ∧ s[k]? = some a ∧ s[k + 1]? = some b ∧ m = (a + b) / 2) := by
  split
  · rename_i hodd
    constructor
    · intro h; exact Or.inl ⟨s.length / 2, by omega, h⟩
    · rintro (⟨k, h1, h2⟩ | ⟨k, a, b, h1, _⟩)
      · rw [show s.length / 2 = k by omega]; exact h2
      · omega
  · rename_i heven
    constructor
    · intro h
      split at h
      · rename_i a b ha hb
        injection h with h
        have hlt := (List.getElem?_eq_some_iff.mp hb).1
        refine Or.inr ⟨s.length / 2 - 1, a, b, by omega, ha, ?_, h.symm⟩
        rw [show s.length / 2 - 1 + 1 = s.length / 2 by omega]; exact hb
      · cases h
    · rintro (⟨k, h1, _⟩ | ⟨k, a, b, h1, h2, h3, h4⟩)
      · omega
      · rw [show s.length / 2 - 1 = k by omega, show s.length / 2 = k + 1 by omega, h2, h3]
        simp only [h4]

theorem medianN_iff (vs : List (Option Rat)) (m : Rat) : medianN vs = some m ↔ IsMedian (present vs) m := by
  rw [isMedian_sorted, ← middle_iff]
  rfl

theorem isMedian_exists {l : List Rat} (h : l ≠ []) : ∃ m, IsMedian l m := by
  have hl : (sorted l).length ≠ 0 := by
    rw [(sorted_perm l).length_eq]
    intro e; exact h (List.length_eq_zero_iff.mp e)
  by_cases hodd : (sorted l).length % 2 = 1
  · have hlt : (sorted l).length / 2 < (sorted l).length := by omega
    exact ⟨_, (isMedian_sorted ..).mpr (Or.inl ⟨(sorted l).length / 2, by omega, List.getElem?_eq_getElem hlt⟩)⟩
  · have h1 : (sorted l).length / 2 - 1 < (sorted l).length := by omega
    have h2 : (sorted l).length / 2 - 1 + 1 < (sorted l).length := by omega
    exact ⟨_, (isMedian_sorted ..).mpr (Or.inr ⟨(sorted l).length / 2 - 1, _, _, by omega,
      List.getElem?_eq_getElem h1, List.getElem?_eq_getElem h2, rfl⟩)⟩

end Beep.Proof.Stats
