import Verif.Proof.IndigoTable
/-
C178: the records of an Indigo file are numbered, keep their times to the microsecond and their
values under the published names, also when the file has the old index of the table in it.
-/
namespace Beep.IndigoTable
open Beep Beep.Casts Beep.Spec.Casts Beep.Spec.IndigoTable

/-- C178: a file that has no column `index` or `level_0`: the first column numbers the records from
zero, the columns of the file follow in order with their values, under their published names. -/
theorem C178_columns_partial {index : Ingest.Column} {t : Table} (h1 : "index" ∉ t.map Prod.fst) (h2 : "level_0" ∉ t.map Prod.fst) :
    ∃ numbers out, published index t = .ok (("data_point", numbers) :: out) ∧
      numbers.length = index.length ∧ (∀ i, i < index.length → numbers[i]? = some (i : Rat)) ∧
      List.Forall₂ (fun a b => b.2 = a.2 ∧ Published indigo a.1 b.1) t out := by
  refine ⟨fresh index.length, t.map (fun p => (newName columnNames p.1, p.2)), ?_, by simp [fresh], fresh_get _, ?_⟩
  · unfold published
    rw [resetIndex_plain h1]
    simp only
    rw [resetIndex_second (by simp) (by
      rw [List.map_cons, List.mem_cons, not_or]
      exact ⟨by simp, h2⟩)]
    simp only
    have hd : dropColumn "index" (("level_0", fresh index.length) :: ("index", index) :: t) =
        .ok (("level_0", fresh index.length) :: t) := by
      unfold dropColumn
      rw [if_pos (by rw [List.contains_iff_mem]; simp)]
      congr 1
      rw [List.filter_cons_of_pos (by simp), List.filter_cons_of_neg (by simp)]
      congr 1
      rw [List.filter_eq_self]
      intro p hp
      have : p.1 ≠ "index" := by
        intro e
        exact h1 (e ▸ List.mem_map_of_mem (f := Prod.fst) hp)
      simpa using this
    rw [hd]
    simp only [renamed, List.map_cons, List.map_map, Except.ok.injEq]
    congr 1
    refine List.map_congr_left (fun p hp => ?_)
    have : p.1 ≠ "level_0" := by
      intro e
      exact h2 (e ▸ List.mem_map_of_mem (f := Prod.fst) hp)
    simp only [Function.comp, newName_levels this]
  · rw [List.forall₂_map_right_iff]
    exact List.forall₂_same.mpr (fun p _ => ⟨rfl, names_indigo p.1⟩)

/-- C178 fails: every file that stores the old index of its table as a column, under either of the
names that pandas gives it, is refused. -/
theorem C178_stored_index_violated {index : Ingest.Column} {t : Table}
    (h : "index" ∈ t.map Prod.fst ∨ "level_0" ∈ t.map Prod.fst) : published index t = .error .valueError := by
  unfold published
  by_cases h1 : "index" ∈ t.map Prod.fst
  · by_cases h2 : "level_0" ∈ t.map Prod.fst
    · rw [resetIndex_refused h1 h2]
    · rw [resetIndex_second h1 h2]
      simp only
      rw [resetIndex_refused (by simp only [List.map_cons, List.mem_cons]; exact .inr h1) (by simp)]
  · have h2 := h.resolve_left h1
    rw [resetIndex_plain h1]
    simp only
    rw [resetIndex_refused (by simp) (by simp only [List.map_cons, List.mem_cons]; exact .inr h2)]

/-- C178: every record has its own time, exact to the microsecond in spite of the two roundings to
floating-point numbers, and the run starts with its earliest record. -/
theorem C178_times {times : List Rat} (h : ∀ x ∈ times, Microseconds x) (hne : times ≠ []) :
    ∃ isos s, timed times = .ok (isos, s) ∧ isos.map (fun i : Int => (i : Rat)) = times ∧ s ∈ isos ∧ ∀ i ∈ isos, s ≤ i := by
  obtain ⟨isos, h1, h2⟩ := instants_exact h
  have hlen : isos.length = times.length := by rw [← h2, List.length_map]
  have hz : times.zip isos = isos.map (fun i : Int => ((i : Rat), i)) := by
    rw [← h2]
    clear h1 h2 hlen
    induction isos with
    | nil => rfl
    | cons i is ih => simp only [List.map_cons, List.zip_cons_cons, ih]
  have hp := Pandas.pairwise_sortBy (fun a b : Rat × Int => decide (a.1 ≤ b.1))
    (by intro a b c hab hbc; simp only [decide_eq_true_eq] at *; exact le_trans hab hbc)
    (by intro a b; simp only [Bool.or_eq_true, decide_eq_true_eq]; exact le_total _ _) (times.zip isos)
  unfold timed
  rw [h1]
  simp only
  unfold start
  cases e : Pandas.sortBy (fun a b : Rat × Int => decide (a.1 ≤ b.1)) (times.zip isos) with
  | nil =>
    have := Pandas.length_sortBy (fun a b : Rat × Int => decide (a.1 ≤ b.1)) (times.zip isos)
    rw [e, List.length_zip, hlen, min_self] at this
    exact absurd (List.length_eq_zero_iff.mp this.symm) hne
  | cons p l =>
    rw [e] at hp
    have hm : ∀ y, y ∈ p :: l ↔ y ∈ times.zip isos := by intro y; rw [← e]; exact Pandas.mem_sortBy
    have hpz := (hm p).mp (List.mem_cons_self ..)
    rw [hz, List.mem_map] at hpz
    obtain ⟨i, hi, rfl⟩ := hpz
    refine ⟨isos, i, rfl, h2, hi, ?_⟩
    intro j hj
    have hjm : ((j : Rat), j) ∈ times.zip isos := by rw [hz]; exact List.mem_map_of_mem (f := fun i : Int => ((i : Rat), i)) hj
    rcases List.mem_cons.mp ((hm _).mpr hjm) with e' | hl
    · cases e'; exact le_refl _
    · have := (List.pairwise_cons.mp hp).1 _ hl
      simp only [decide_eq_true_eq] at this
      exact_mod_cast this

/-! ### The hypotheses can be met -/

example : published [7, 8] [("cell_id", [1, 1]), ("cell_current_a", [2, 3]), ("test_time", [0, 1])] =
    .ok [("data_point", [0, 1]), ("cell_id", [1, 1]), ("current", [2, 3]), ("test_time", [0, 1])] := by decide +kernel

example : published [7, 8] [("index", [1, 1]), ("cell_current_a", [2, 3])] = .error .valueError := by decide +kernel

-- two records of 2021, the later one first
example : timed [1625000000000001, 1624999999999999] = .ok ([1625000000000001, 1624999999999999], 1624999999999999) := by
  decide +kernel

example : Microseconds 1625000000000001 := ⟨1625000000000001, by norm_num, by decide +kernel⟩

end Beep.IndigoTable
