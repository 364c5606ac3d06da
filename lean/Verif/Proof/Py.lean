import Verif.Model.Py
/-
Lemmas about the shared Python pieces.
-/
namespace Beep
namespace Dict
variable {κ ν : Type} [DecidableEq κ]

theorem get?_set_self (d : Dict κ ν) (k : κ) (v : ν) : get? (set d k v) k = some v := by
  induction d with
  | nil => simp [set, get?]
  | cons p d ih =>
    obtain ⟨k', v'⟩ := p
    by_cases h : k' = k <;> simp [set, get?, h, ih]

theorem get?_set_ne (d : Dict κ ν) {k k' : κ} (v : ν) (h : k' ≠ k) :
    get? (set d k v) k' = get? d k' := by
  induction d with
  | nil => simp [set, get?, Ne.symm h]
  | cons p d ih =>
    obtain ⟨k₀, v₀⟩ := p
    by_cases h0 : k₀ = k
    · subst h0
      simp [set, get?, Ne.symm h]
    · by_cases h1 : k₀ = k'
      · subst h1; simp [set, get?, h]
      · simp [set, get?, h0, h1, ih]

theorem get?_set (d : Dict κ ν) (k k' : κ) (v : ν) :
    get? (set d k v) k' = if k' = k then some v else get? d k' := by
  by_cases h : k' = k
  · subst h; simp [get?_set_self]
  · simp [h, get?_set_ne d v h]

theorem get?_some_mem {d : Dict κ ν} {k : κ} {v : ν} (h : get? d k = some v) : (k, v) ∈ d := by
  induction d with
  | nil => simp [get?] at h
  | cons p d ih =>
    obtain ⟨k₀, v₀⟩ := p
    by_cases h0 : k₀ = k
    · subst h0; simp [get?] at h; simp [h]
    · simp [get?, h0] at h; exact List.mem_cons_of_mem _ (ih h)

theorem get?_of_mem {d : Dict κ ν} (wf : WF d) {k : κ} {v : ν} (h : (k, v) ∈ d) :
    get? d k = some v := by
  induction d with
  | nil => cases h
  | cons p d ih =>
    obtain ⟨k₀, v₀⟩ := p
    simp only [WF, keys, List.map_cons, List.nodup_cons] at wf
    rcases List.mem_cons.mp h with h | h
    · cases h; simp [get?]
    · have : k₀ ≠ k := by
        rintro rfl
        exact wf.1 (List.mem_map_of_mem (f := Prod.fst) h)
      simp [get?, this]
      exact ih wf.2 h

theorem get?_eq_some_iff {d : Dict κ ν} (wf : WF d) {k : κ} {v : ν} :
    get? d k = some v ↔ (k, v) ∈ d := ⟨get?_some_mem, get?_of_mem wf⟩

theorem get?_eq_none_iff {d : Dict κ ν} {k : κ} : get? d k = none ↔ k ∉ keys d := by
  induction d with
  | nil => simp [get?, keys]
  | cons p d ih =>
    obtain ⟨k₀, v₀⟩ := p
    by_cases h0 : k₀ = k
    · subst h0; simp [get?, keys]
    · simp only [get?, h0, if_false, ih]
      simp only [keys, List.map_cons, List.mem_cons, not_or]
      constructor
      · intro h; exact ⟨fun e => h0 e.symm, h⟩
      · intro h; exact h.2

theorem keys_set (d : Dict κ ν) (k : κ) (v : ν) :
    keys (set d k v) = if k ∈ keys d then keys d else keys d ++ [k] := by
  induction d with
  | nil => simp [set, keys]
  | cons p d ih =>
    obtain ⟨k₀, v₀⟩ := p
    by_cases h0 : k₀ = k
    · subst h0; simp [set, keys]
    · have h1 : ¬ k = k₀ := fun e => h0 e.symm
      simp only [set, h0, if_false]
      simp only [keys, List.map_cons, List.mem_cons, h1, false_or] at ih ⊢
      rw [ih]; split <;> simp [*]

theorem mem_keys_set {d : Dict κ ν} {k k' : κ} {v : ν} :
    k' ∈ keys (set d k v) ↔ k' = k ∨ k' ∈ keys d := by
  rw [keys_set]; split
  · constructor
    · exact Or.inr
    · rintro (rfl | h) <;> assumption
  · simp [or_comm]

theorem WF_set {d : Dict κ ν} (wf : WF d) (k : κ) (v : ν) : WF (set d k v) := by
  unfold WF at *
  rw [keys_set]; split
  · exact wf
  · rename_i h
    rw [List.nodup_append]
    refine ⟨wf, by simp, ?_⟩
    intro a ha b hb e
    simp at hb; subst hb; subst e; exact h ha

theorem has_iff {d : Dict κ ν} {k : κ} : has d k = true ↔ k ∈ keys d := by
  unfold has
  cases h : get? d k with
  | none => simp [get?_eq_none_iff.mp h]
  | some v =>
    have := get?_some_mem h
    simp [keys]
    exact ⟨v, this⟩

theorem get?_erase_ne (d : Dict κ ν) {k k' : κ} (h : k' ≠ k) :
    get? (erase d k) k' = get? d k' := by
  induction d with
  | nil => rfl
  | cons p d ih =>
    obtain ⟨k₀, v₀⟩ := p
    by_cases h0 : k₀ = k
    · subst h0; simp [erase, get?, Ne.symm h]
    · by_cases h1 : k₀ = k'
      · subst h1; simp [erase, get?, h]
      · simp [erase, get?, h0, h1, ih]

theorem get?_erase_self {d : Dict κ ν} (wf : WF d) (k : κ) : get? (erase d k) k = none := by
  induction d with
  | nil => rfl
  | cons p d ih =>
    obtain ⟨k₀, v₀⟩ := p
    simp only [WF, keys, List.map_cons, List.nodup_cons] at wf
    by_cases h0 : k₀ = k
    · subst h0
      simp [erase]
      exact get?_eq_none_iff.mpr wf.1
    · simp [erase, get?, h0]; exact ih wf.2

theorem keys_erase_sublist (d : Dict κ ν) (k : κ) : (keys (erase d k)).Sublist (keys d) := by
  induction d with
  | nil => simp [erase]
  | cons p d ih =>
    obtain ⟨k₀, v₀⟩ := p
    by_cases h0 : k₀ = k
    · subst h0; simp [erase, keys]
    · simp only [erase, h0, if_false, keys, List.map_cons] at ih ⊢
      exact ih.cons_cons k₀

theorem WF_erase {d : Dict κ ν} (wf : WF d) (k : κ) : WF (erase d k) :=
  List.Nodup.sublist (keys_erase_sublist d k) wf

end Dict

theorem containsSub_iff (n h : List Char) : containsSub n h = true ↔ n <:+: h := by
  induction h with
  | nil => simp [containsSub, List.isEmpty_iff]
  | cons c cs ih =>
    simp only [containsSub, Bool.or_eq_true, ih, List.infix_cons_iff, List.isPrefixOf_iff_prefix]

section Unique
variable {α : Type} [DecidableEq α]

theorem mem_unique {a : α} {l : List α} : a ∈ unique l ↔ a ∈ l := by
  induction l with
  | nil => simp [unique]
  | cons b l ih =>
    simp only [unique, List.mem_cons, List.mem_filter, ih]
    by_cases h : a = b <;> simp [h]

theorem nodup_unique (l : List α) : (unique l).Nodup := by
  induction l with
  | nil => simp [unique]
  | cons b l ih =>
    simp only [unique, List.nodup_cons]
    refine ⟨by simp, List.Nodup.sublist List.filter_sublist ih⟩

theorem length_unique_le (l : List α) : (unique l).length ≤ l.length := by
  induction l with
  | nil => simp [unique]
  | cons b l ih =>
    simp only [unique, List.length_cons]
    have := List.length_filter_le (fun x => decide (x ≠ b)) (unique l)
    omega

theorem unique_of_nodup {l : List α} (h : l.Nodup) : unique l = l := by
  induction l with
  | nil => rfl
  | cons b l ih =>
    rw [List.nodup_cons] at h
    simp only [unique, ih h.2]
    congr 1
    rw [List.filter_eq_self]
    intro a ha
    simp
    rintro rfl; exact h.1 ha

theorem unique_unique (l : List α) : unique (unique l) = unique l :=
  unique_of_nodup (nodup_unique l)

theorem length_unique_eq_iff {l : List α} : (unique l).length = l.length ↔ l.Nodup := by
  constructor
  · intro h
    induction l with
    | nil => simp
    | cons b l ih =>
      simp only [unique, List.length_cons] at h
      have h1 := List.length_filter_le (fun x => decide (x ≠ b)) (unique l)
      have h2 := length_unique_le l
      have h3 : (unique l).length = l.length := by omega
      have h4 : ((unique l).filter (fun x => decide (x ≠ b))).length = (unique l).length := by
        omega
      rw [List.nodup_cons]
      refine ⟨?_, ih h3⟩
      intro hb
      have hb' : b ∈ unique l := mem_unique.mpr hb
      have := List.length_filter_eq_length_iff.mp h4 b hb'
      simp at this
  · intro h; rw [unique_of_nodup h]
end Unique
end Beep
