import Verif.Proof.Base
import Verif.Proof.Py
import Verif.Model.Pandas
/-
Lemmas about the pandas operations.
-/
namespace Beep.Pandas

theorem insertBy_perm {α : Type} (le : α → α → Bool) (a : α) (l : List α) :
    (insertBy le a l).Perm (a :: l) := by
  induction l with
  | nil => exact List.Perm.refl _
  | cons b bs ih =>
    unfold insertBy
    split
    · exact List.Perm.refl _
    · exact (List.Perm.cons b ih).trans (List.Perm.swap a b bs)

theorem sortBy_perm {α : Type} (le : α → α → Bool) (l : List α) : (sortBy le l).Perm l := by
  induction l with
  | nil => exact List.Perm.refl _
  | cons a as ih => exact (insertBy_perm le a _).trans (List.Perm.cons a ih)

theorem mem_sortBy {α : Type} {le : α → α → Bool} {l : List α} {a : α} : a ∈ sortBy le l ↔ a ∈ l :=
  (sortBy_perm le l).mem_iff

theorem pairwise_insertBy {α : Type} (le : α → α → Bool)
    (trans : ∀ a b c, le a b = true → le b c = true → le a c = true)
    (total : ∀ a b, (le a b || le b a) = true) (a : α) (l : List α)
    (h : l.Pairwise (fun x y => le x y = true)) :
    (insertBy le a l).Pairwise (fun x y => le x y = true) := by
  induction l with
  | nil => simp [insertBy]
  | cons b bs ih =>
    have h' := List.pairwise_cons.mp h
    unfold insertBy
    split
    · rename_i hab
      refine List.pairwise_cons.mpr ⟨?_, h⟩
      intro c hc
      rcases List.mem_cons.mp hc with e | e
      · rw [e]; exact hab
      · exact trans a b c hab (h'.1 c e)
    · rename_i hab
      have hba : le b a = true := by
        have := total a b
        simpa [hab] using this
      refine List.pairwise_cons.mpr ⟨?_, ih h'.2⟩
      intro c hc
      rcases List.mem_cons.mp ((insertBy_perm le a bs).mem_iff.mp hc) with e | e
      · rw [e]; exact hba
      · exact h'.1 c e

theorem pairwise_sortBy {α : Type} (le : α → α → Bool)
    (trans : ∀ a b c, le a b = true → le b c = true → le a c = true)
    (total : ∀ a b, (le a b || le b a) = true) (l : List α) :
    (sortBy le l).Pairwise (fun x y => le x y = true) := by
  induction l with
  | nil => exact List.Pairwise.nil
  | cons a as ih => exact pairwise_insertBy le trans total a _ ih

theorem sortBy_of_pairwise {α : Type} {le : α → α → Bool} {l : List α}
    (h : l.Pairwise (fun x y => le x y = true)) : sortBy le l = l := by
  induction l with
  | nil => rfl
  | cons a as ih =>
    have h' := List.pairwise_cons.mp h
    rw [sortBy, ih h'.2]
    cases as with
    | nil => rfl
    | cons b bs => simp [insertBy, h'.1 b (by simp)]

theorem length_sortBy {α : Type} (le : α → α → Bool) (l : List α) : (sortBy le l).length = l.length :=
  (sortBy_perm le l).length_eq

theorem sum_nonneg {l : List Rat} (h : ∀ v ∈ l, 0 ≤ v) : 0 ≤ l.sum := by
  induction l with
  | nil => simp
  | cons a l ih =>
    rw [List.sum_cons]
    have := h a (by simp)
    have := ih (fun v hv => h v (List.mem_cons_of_mem _ hv))
    linarith

theorem maxN_none (l : List (Option Rat)) : maxN l = none ↔ ¬ ∃ v, some v ∈ l := by
  induction l with
  | nil => simp [maxN]
  | cons a l ih =>
    cases a with
    | none => simp [maxN, ih]
    | some v =>
      unfold maxN
      split <;> simp

theorem maxN_some (l : List (Option Rat)) (m : Rat) (h : maxN l = some m) :
    some m ∈ l ∧ ∀ v, some v ∈ l → v ≤ m := by
  induction l generalizing m with
  | nil => simp [maxN] at h
  | cons a l ih =>
    cases a with
    | none =>
      simp only [maxN] at h
      obtain ⟨h1, h2⟩ := ih m h
      exact ⟨by simp [h1], fun v hv => h2 v (by simpa using hv)⟩
    | some v =>
      unfold maxN at h
      split at h
      · rename_i hn
        cases h
        refine ⟨by simp, ?_⟩
        intro w hw
        simp only [List.mem_cons, Option.some.injEq] at hw
        rcases hw with rfl | hw
        · exact le_refl _
        · exact absurd ⟨w, hw⟩ ((maxN_none l).mp hn)
      · rename_i w hw
        obtain ⟨h1, h2⟩ := ih w hw
        cases h
        split
        · rename_i hlt
          refine ⟨by simp [h1], ?_⟩
          intro u hu
          simp only [List.mem_cons, Option.some.injEq] at hu
          rcases hu with rfl | hu
          · exact le_of_lt hlt
          · exact h2 u hu
        · rename_i hlt
          refine ⟨by simp, ?_⟩
          intro u hu
          simp only [List.mem_cons, Option.some.injEq] at hu
          rcases hu with rfl | hu
          · exact le_refl _
          · exact le_trans (h2 u hu) (not_lt.mp hlt)

theorem minN_none (l : List (Option Rat)) : minN l = none ↔ ¬ ∃ v, some v ∈ l := by
  induction l with
  | nil => simp [minN]
  | cons a l ih =>
    cases a with
    | none => simp [minN, ih]
    | some v =>
      unfold minN
      split <;> simp

theorem minN_some (l : List (Option Rat)) (m : Rat) (h : minN l = some m) :
    some m ∈ l ∧ ∀ v, some v ∈ l → m ≤ v := by
  induction l generalizing m with
  | nil => simp [minN] at h
  | cons a l ih =>
    cases a with
    | none =>
      simp only [minN] at h
      obtain ⟨h1, h2⟩ := ih m h
      exact ⟨by simp [h1], fun v hv => h2 v (by simpa using hv)⟩
    | some v =>
      unfold minN at h
      split at h
      · rename_i hn
        cases h
        refine ⟨by simp, ?_⟩
        intro w hw
        simp only [List.mem_cons, Option.some.injEq] at hw
        rcases hw with rfl | hw
        · exact le_refl _
        · exact absurd ⟨w, hw⟩ ((minN_none l).mp hn)
      · rename_i w hw
        obtain ⟨h1, h2⟩ := ih w hw
        cases h
        split
        · rename_i hlt
          refine ⟨by simp [h1], ?_⟩
          intro u hu
          simp only [List.mem_cons, Option.some.injEq] at hu
          rcases hu with rfl | hu
          · exact le_of_lt hlt
          · exact h2 u hu
        · rename_i hlt
          refine ⟨by simp, ?_⟩
          intro u hu
          simp only [List.mem_cons, Option.some.injEq] at hu
          rcases hu with rfl | hu
          · exact le_refl _
          · exact le_trans (not_lt.mp hlt) (h2 u hu)

theorem mem_groupKeys {k : Int} {keys : List Int} : k ∈ groupKeys keys ↔ k ∈ keys := by
  unfold groupKeys
  rw [mem_sortBy, mem_unique]

theorem nodup_groupKeys (keys : List Int) : (groupKeys keys).Nodup :=
  (sortBy_perm _ _).nodup_iff.mpr (nodup_unique keys)

theorem sorted_groupKeys (keys : List Int) : (groupKeys keys).Pairwise (· < ·) := by
  have h1 : (groupKeys keys).Pairwise (fun a b => decide (a ≤ b) = true) := by
    unfold groupKeys
    apply pairwise_sortBy
    · intro a b c h1 h2; simp only [decide_eq_true_eq] at *; omega
    · intro a b; simp only [Bool.or_eq_true, decide_eq_true_eq]; omega
  have h2 := nodup_groupKeys keys
  have := h1.and h2
  refine this.imp ?_
  rintro a b ⟨h, hne⟩
  simp only [decide_eq_true_eq] at h
  omega

/-- splitting a list by its keys loses and duplicates nothing -/
theorem perm_groups {α : Type} (key : α → Int) (rows : List α) (ks : List Int) (hn : ks.Nodup)
    (hc : ∀ r ∈ rows, key r ∈ ks) :
    (ks.flatMap (fun k => rows.filter (fun r => key r = k))).Perm rows := by
  induction rows with
  | nil =>
    have : ks.flatMap (fun k => ([] : List α).filter (fun r => key r = k)) = [] := by
      simp
    rw [this]
  | cons r rows ih =>
    have ih := ih (fun q hq => hc q (List.mem_cons_of_mem _ hq))
    have hr : key r ∈ ks := hc r (List.mem_cons_self ..)
    obtain ⟨pre, post, rfl⟩ := List.append_of_mem hr
    have hnd := List.nodup_append.mp hn
    have hpost := (List.nodup_cons.mp hnd.2.1).1
    have hpre : key r ∉ pre := fun h => hnd.2.2 _ h _ (List.mem_cons_self ..) rfl
    have e : ∀ l : List Int, key r ∉ l → l.flatMap (fun k => (r :: rows).filter (fun r => key r = k)) =
        l.flatMap (fun k => rows.filter (fun r => key r = k)) := by
      intro l hl
      induction l with
      | nil => rfl
      | cons a l ihl =>
        simp only [List.mem_cons, not_or] at hl
        rw [List.flatMap_cons, List.flatMap_cons, ihl hl.2]
        congr 1
        simp only [List.filter_cons, hl.1, decide_false, Bool.false_eq_true, if_false]
    simp only [List.flatMap_append, List.flatMap_cons] at ih ⊢
    rw [e pre hpre, e post hpost]
    simp only [List.filter_cons, decide_true, if_true, List.cons_append]
    exact (List.perm_middle).trans (ih.cons r)

end Beep.Pandas
