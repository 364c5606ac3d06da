import Verif.Spec.RunParameters
import Verif.Proof.Hppc
import Verif.Proof.Pandas
import Verif.Proof.Py
import Verif.Props.Ingest
/-
Lemmas for C119 and C120.
-/
namespace Beep.Proof.RunParameters
open Beep Beep.RunParameters Beep.Spec.RunParameters Pandas

theorem mem_stepsOf (d : Raw) (c s : Int) : s ∈ stepsOf d c ↔ (c, s) ∈ d := by
  unfold stepsOf
  rw [mem_unique, List.mem_map]
  constructor
  · rintro ⟨⟨a, b⟩, hm, rfl⟩
    rw [List.mem_filter] at hm
    have : a = c := by simpa using hm.2
    subst this; exact hm.1
  · intro h
    exact ⟨(c, s), List.mem_filter.mpr ⟨h, by simp⟩, rfl⟩

theorem sameSet_iff (d : Raw) (c c' : Int) : sameSet (stepsOf d c) (stepsOf d c') = true ↔ SameSteps d c c' := by
  unfold sameSet SameSteps
  simp only [Bool.and_eq_true, List.all_eq_true, List.contains_iff_mem, mem_stepsOf]
  exact ⟨fun h s => ⟨h.1 s, h.2 s⟩, fun h => ⟨fun s => (h s).1, fun s => (h s).2⟩⟩

theorem stepsOf_length (d : Raw) (c : Int) : (stepsOf d c).length = (steps d c).card := by
  unfold stepsOf steps
  exact Hppc.unique_length _

theorem pattern_iff (d : Raw) (c c' : Int) : pattern d c = pattern d c' ↔ SamePattern d c c' := by
  unfold pattern SamePattern
  simp only [List.map_inj_left, List.mem_range, stepsOf_length]
  constructor
  · intro h i h0 h5
    have := h i.toNat (by omega)
    rwa [Int.toNat_of_nonneg h0] at this
  · intro h i hi
    exact h (i : Int) (by omega) (by omega)

theorem foldl_max (l : Raw) (m : Int) :
    m ≤ l.foldl (fun m y => max m y.1) m ∧ (∀ x ∈ l, x.1 ≤ l.foldl (fun m y => max m y.1) m) ∧
    (l.foldl (fun m y => max m y.1) m = m ∨ ∃ x ∈ l, x.1 = l.foldl (fun m y => max m y.1) m) := by
  induction l generalizing m with
  | nil => simp
  | cons y l ih =>
    obtain ⟨h1, h2, h3⟩ := ih (max m y.1)
    simp only [List.foldl_cons]
    refine ⟨by omega, ?_, ?_⟩
    · intro x hx
      rcases List.mem_cons.mp hx with rfl | hx
      · omega
      · exact h2 x hx
    · rcases h3 with h3 | ⟨x, hx, h3⟩
      · rcases le_total m y.1 with h | h
        · exact Or.inr ⟨y, by simp, by rw [h3]; omega⟩
        · exact Or.inl (by rw [h3]; omega)
      · exact Or.inr ⟨x, by simp [hx], h3⟩

theorem lastCycle_iff (d : Raw) (x : Int × Int) (hx : x ∈ d) (c : Int) : c ≥ lastCycle d - 5 - 1 ↔ NearEnd d c := by
  cases d with
  | nil => cases hx
  | cons y l =>
    obtain ⟨h1, h2, h3⟩ := foldl_max l y.1
    unfold lastCycle NearEnd
    simp only
    constructor
    · intro h z hz
      rcases List.mem_cons.mp hz with rfl | hz
      · omega
      · have := h2 z hz; omega
    · intro h
      rcases h3 with h3 | ⟨z, hz, h3⟩
      · have := h y (by simp); omega
      · have := h z (by simp [hz]); omega

theorem mem_startsAt (d : Raw) (second c : Int) : c ∈ startsAt d second ↔ Begins d second c := by
  unfold startsAt Begins
  rw [List.mem_filter, mem_unique, List.mem_map]
  have hex : (∃ a ∈ d, a.1 = c) ↔ ∃ s, (c, s) ∈ d :=
    ⟨fun ⟨⟨a, b⟩, h, e⟩ => ⟨b, by subst e; exact h⟩, fun ⟨s, h⟩ => ⟨_, h, rfl⟩⟩
  rw [hex]
  refine and_congr_right ?_
  rintro ⟨s, hs⟩
  have hl := lastCycle_iff d _ hs c
  unfold isStart
  split
  · rename_i h
    rw [Bool.or_eq_true, sameSet_iff, sameSet_iff] at h
    simp only [true_iff]
    rcases h with h | h
    · exact Or.inl h
    · exact Or.inr (Or.inl h)
  · rename_i h
    rw [Bool.or_eq_true, sameSet_iff, sameSet_iff, not_or] at h
    rw [Bool.and_eq_true, decide_eq_true_iff, hl, Bool.or_eq_true, beq_iff_eq, beq_iff_eq, pattern_iff, pattern_iff]
    constructor
    · exact fun h => Or.inr (Or.inr h)
    · rintro (h' | h' | h')
      · exact absurd h' h.1
      · exact absurd h' h.2
      · exact h'

theorem nodup_startsAt (d : Raw) (second : Int) : (startsAt d second).Nodup :=
  (nodup_unique _).filter _

theorem unique_sublist [DecidableEq α] (l : List α) : (unique l).Sublist l := by
  induction l with
  | nil => simp [unique]
  | cons a l ih =>
    simp only [unique]
    exact (List.Sublist.trans List.filter_sublist ih).cons₂ a

theorem startsAt_sublist (d : Raw) (second : Int) : (startsAt d second).Sublist (d.map Prod.fst) :=
  List.Sublist.trans List.filter_sublist (unique_sublist _)

theorem has_iff (r : Row) (n : String) : Dict.has r.vals n = true ↔ HasColumn r n := by
  unfold Dict.has HasColumn In
  rw [Option.isSome_iff_exists]

theorem hasAll_iff (r : Row) (ns : List String) : hasAll r ns = true ↔ ∀ n ∈ ns, HasColumn r n := by
  unfold hasAll
  simp only [List.all_eq_true, has_iff]

theorem column_eq (rows : List Row) (n : String) : column rows n = numbers rows n := by
  unfold column numbers
  apply List.map_congr_left
  intro r _
  cases Dict.get? r.vals n with
  | none => rfl
  | some c => cases c <;> rfl

theorem least_min (l : List (Option Rat)) : Least l (minN l) := by
  unfold Least
  split
  · rename_i v h; exact minN_some _ _ h
  · rename_i h
    intro v hv
    cases v with
    | none => rfl
    | some x => exact absurd ⟨x, hv⟩ ((minN_none _).mp h)

theorem greatest_max (l : List (Option Rat)) : Greatest l (maxN l) := by
  unfold Greatest
  split
  · rename_i v h; exact maxN_some _ _ h
  · rename_i h
    intro v hv
    cases v with
    | none => rfl
    | some x => exact absurd ⟨x, hv⟩ ((maxN_none _).mp h)

/-- the outcome of `diagnostics` by the cells of the row -/
theorem diagnostics_eq (d : Raw) (r : Row) :
    (¬ HppcRpt r → diagnostics d r = .ok none) ∧
    (∀ start set, HppcRpt r → In r "diagnostic_start_cycle" (.int start) → In r "diagnostic_parameter_set" set →
      diagnostics d r = .ok (some ⟨set, ["reset", "hppc", "rpt_0.2C", "rpt_1C", "rpt_2C"], 5, startsAt d (1 + start + 5)⟩)) ∧
    (HppcRpt r → (¬ ∃ start, In r "diagnostic_start_cycle" (.int start)) → diagnostics d r = .error .typeError) ∧
    (∀ start, HppcRpt r → In r "diagnostic_start_cycle" (.int start) → ¬ HasColumn r "diagnostic_parameter_set" →
      diagnostics d r = .error .keyError) := by
  have hall : HppcRpt r → hasAll r ["diagnostic_type", "diagnostic_start_cycle", "diagnostic_interval"] = true := by
    rintro ⟨h1, h2, h3⟩
    rw [hasAll_iff]
    intro n hn
    simp only [List.mem_cons, List.not_mem_nil, or_false] at hn
    rcases hn with rfl | rfl | rfl
    · exact ⟨_, h1⟩
    · exact h2
    · exact h3
  have htype : HppcRpt r → cell r "diagnostic_type" = .ok (.text "HPPC+RPT") := by
    rintro ⟨h1, -, -⟩
    unfold In at h1
    simp only [cell, h1]
  refine ⟨?_, ?_, ?_, ?_⟩
  · intro hn
    unfold diagnostics
    split
    · rename_i h
      rw [hasAll_iff] at h
      obtain ⟨t, ht⟩ := h "diagnostic_type" (by simp)
      have h2 := h "diagnostic_start_cycle" (by simp)
      have h3 := h "diagnostic_interval" (by simp)
      unfold In at ht
      simp only [cell, ht]
      rw [if_neg]
      rintro rfl
      exact hn ⟨ht, h2, h3⟩
    · rfl
  · intro start set h hs hp
    unfold In at hs hp
    unfold diagnostics
    rw [if_pos (hall h), htype h]
    simp only [cell, hs, hp, if_true]
  · intro h hs
    obtain ⟨c, hc⟩ := h.2.1
    unfold diagnostics
    rw [if_pos (hall h), htype h]
    have hc' := hc
    unfold In at hc
    simp only [cell, hc, if_true]
    cases c with
    | int n => exact absurd ⟨n, hc'⟩ hs
    | num v => rfl
    | text t => rfl
  · intro start h hs hp
    unfold In at hs
    have hp' : Dict.get? r.vals "diagnostic_parameter_set" = none := by
      rw [Option.eq_none_iff_forall_ne_some]
      exact fun c hc => hp ⟨c, hc⟩
    unfold diagnostics
    rw [if_pos (hall h), htype h]
    simp only [cell, hs, hp', if_true]

/-- the row of the run, looked up -/
theorem lookup_first (path : Str) (project : Str) (n : Nat) (h : Spec.Ingest.RunFile path project n)
    (pre post : List (Str × List Row)) (name : Str) (before after : List Row) (r : Row)
    (hf : Spec.Ingest.BelongsTo name project) (ho : ∀ g ∈ pre ++ post, ¬ project <+: g.1)
    (hb : ∀ x ∈ before, x.seq ≠ n) (hr : r.seq = n) :
    ∃ more, Ingest.lookup Row.seq (pre ++ (name, before ++ r :: after) :: post) path =
      .ok (some (r :: more, before ++ r :: after)) := by
  have hdot : '.' ∉ project := by obtain ⟨_, _, _, _, _, _, _, _, _, _, h⟩ := h; exact h
  have hp : project <+: name := by obtain ⟨_, rest, e⟩ := hf; exact ⟨_, e.symm⟩
  have e := Props.Ingest.lookup_single Row.seq path project n h (pre ++ (name, before ++ r :: after) :: post)
    (name, before ++ r :: after)
    (Props.Ingest.glob_single project pre post _ hp (Props.Ingest.belongs_head _ _ hf hdot) ho)
  have hfl : (before ++ r :: after).filter (fun x => x.seq = (n : Int)) =
      r :: after.filter (fun x => x.seq = (n : Int)) := by
    rw [List.filter_append, List.filter_cons, if_pos (by simpa using hr)]
    have : before.filter (fun x => x.seq = (n : Int)) = [] := by
      rw [List.filter_eq_nil_iff]
      intro x hx; simpa using hb x hx
    rw [this]; rfl
  refine ⟨after.filter (fun x => x.seq = (n : Int)), ?_⟩
  rw [e]
  simp only [hfl]
  rfl

end Beep.Proof.RunParameters
