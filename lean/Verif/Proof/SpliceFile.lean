import Verif.Proof.Base
import Verif.Spec.SpliceFile
/-
Lemmas about spliced tables, column by column.
-/
namespace Beep.Proof.SpliceFile
open Beep SpliceFile Spec.SpliceFile

theorem counter_iff (c : Str) : c ∈ columnsToUpdate ↔ Counter c := by
  simp [columnsToUpdate, Counter]

/-- the cell of a possibly missing number -/
def cellOf (x : Option Rat) : Cell := x.elim Cell.missing Cell.num

theorem addAll_numbers (last : Rat) (ys : List (Option Rat)) :
    addAll (.num last) (ys.map cellOf) = .ok ((ys.map (fun y => y.map (fun v => v + last))).map cellOf) := by
  induction ys with
  | nil => rfl
  | cons y ys ih => cases y <;> simp only [List.map_cons, addAll, cellOf, Option.elim, add, bind, Except.bind, Option.map] <;>
      rw [ih] <;> rfl

theorem newColumn_numbers {xs ys : List (Option Rat)} (hx : xs ≠ []) (hy : ys ≠ []) :
    ∃ zs, newColumn (xs.map cellOf) (ys.map cellOf) = .ok (zs.map cellOf) ∧ zs.length = ys.length ∧ GoOn xs ys zs := by
  obtain ⟨l, hl⟩ : ∃ l, xs.getLast? = some l := ⟨_, List.getLast?_eq_some_getLast hx⟩
  cases ys with
  | nil => exact absurd rfl hy
  | cons y ys =>
    have hl' : (xs.map cellOf).getLast? = some (cellOf l) := by simp [hl]
    rw [List.map_cons]
    simp only [newColumn, hl', bind, Except.bind]
    rw [← List.map_cons]
    cases l with
    | none =>
      refine ⟨y :: ys, by cases y <;> rfl, rfl, ?_, ?_, fun _ => rfl⟩
      · intro a b h1 _ _; rw [hl] at h1; cases h1
      · intro a b h1 _ _; rfl
    | some l => cases y with
      | none =>
        refine ⟨none :: ys, rfl, rfl, ?_, ?_, fun _ => rfl⟩
        · intro a b _ h2 _; cases h2
        · intro a b _ h2 _; rfl
      | some y =>
        by_cases h : y < l
        · have := addAll_numbers l (some y :: ys)
          refine ⟨(some y :: ys).map (fun y => y.map (fun v => v + l)), ?_, by simp, ?_, ?_, ?_⟩
          · simp only [cellOf, Option.elim, less, h, decide_true, if_true]
            exact this
          · intro a b h1 _ _
            rw [hl] at h1; cases h1; rfl
          · intro a b h1 h2 h3
            rw [hl] at h1; cases h1; cases h2
            exact absurd h (by simpa using h3)
          · rintro (h1 | h1)
            · rw [hl] at h1; cases h1
            · cases h1
        · refine ⟨some y :: ys, ?_, rfl, ?_, fun _ _ _ _ _ => rfl, fun _ => rfl⟩
          · simp only [cellOf, Option.elim, less, h, decide_false]; rfl
          · intro a b h1 h2 h3
            rw [hl] at h1; cases h1; cases h2
            exact absurd h3 h

theorem addAll_texts (last : Str) (ys : List Str) :
    addAll (.text last) (ys.map Cell.text) = .ok ((ys.map (fun y => y ++ last)).map Cell.text) := by
  induction ys with
  | nil => rfl
  | cons y ys ih => simp only [List.map_cons, addAll, add, ih, bind, Except.bind]

theorem newColumn_texts {xs ys : List Str} {last first : Str} (hx : xs.getLast? = some last) (hy : ys.head? = some first) :
    newColumn (xs.map Cell.text) (ys.map Cell.text) =
      .ok ((ys.map (fun y => if first < last then y ++ last else y)).map Cell.text) := by
  cases ys with
  | nil => cases hy
  | cons y ys =>
    obtain rfl : y = first := by simpa using hy
    have hl : (xs.map Cell.text).getLast? = some (.text last) := by simp [hx]
    have e := addAll_texts last (y :: ys)
    rw [List.map_cons] at e
    rw [List.map_cons]
    simp only [newColumn, hl, less, bind, Except.bind]
    by_cases h : y < last
    · simp only [h, decide_true, if_true]
      exact e
    · simp [h]

theorem zip_col (rows : List (Str → Cell)) (ys : List Cell) (c : Str) (h : ys.length = rows.length) :
    (List.zipWith (fun r v => fun c' => if c' = c then v else r c') rows ys).map (fun r => r c) = ys ∧
    ∀ c', c' ≠ c → (List.zipWith (fun r v => fun c' => if c' = c then v else r c') rows ys).map (fun r => r c') =
      rows.map (fun r => r c') := by
  induction rows generalizing ys with
  | nil => cases ys with
    | nil => simp
    | cons _ _ => simp at h
  | cons r rows ih => cases ys with
    | nil => simp at h
    | cons y ys =>
      have hh := ih ys (by simpa using h)
      refine ⟨?_, fun c' hc => ?_⟩
      · simp only [List.zipWith_cons_cons, List.map_cons, if_true, hh.1]
      · simp only [List.zipWith_cons_cons, List.map_cons, if_neg hc, hh.2 c' hc]

theorem shiftColumn_ok {d₁ d₂ : Table} {c : Str} {ys : List Cell} (h2 : c ∈ d₂.columns) (h1 : c ∈ d₁.columns)
    (h : newColumn (d₁.col c) (d₂.col c) = .ok ys) (hl : ys.length = d₂.rows.length) :
    ∃ t, shiftColumn d₁ d₂ c = .ok t ∧ t.columns = d₂.columns ∧ t.rows.length = d₂.rows.length ∧ t.col c = ys ∧
      ∀ c', c' ≠ c → t.col c' = d₂.col c' := by
  obtain ⟨a, b⟩ := zip_col d₂.rows ys c hl
  refine ⟨⟨d₂.columns, List.zipWith (fun (r : Str → Cell) v => fun c' => if c' = c then v else r c') d₂.rows ys⟩,
    by simp only [shiftColumn, if_pos h2, if_pos h1, h, bind, Except.bind], rfl, by simp [hl], a, b⟩

theorem shiftAll_ok {d₁ : Table} (cs : List Str) (hn : cs.Nodup) (d₂ : Table)
    (h : ∀ c ∈ cs, c ∈ d₂.columns ∧ c ∈ d₁.columns ∧
      ∃ ys, newColumn (d₁.col c) (d₂.col c) = .ok ys ∧ ys.length = d₂.rows.length) :
    ∃ t, shiftAll d₁ cs d₂ = .ok t ∧ t.columns = d₂.columns ∧ t.rows.length = d₂.rows.length ∧
      (∀ c ∈ cs, newColumn (d₁.col c) (d₂.col c) = .ok (t.col c)) ∧ ∀ c, c ∉ cs → t.col c = d₂.col c := by
  induction cs generalizing d₂ with
  | nil => exact ⟨d₂, rfl, rfl, rfl, by simp, fun _ _ => rfl⟩
  | cons c cs ih =>
    rw [List.nodup_cons] at hn
    obtain ⟨h2, h1, ys, hy, hl⟩ := h c (by simp)
    obtain ⟨t, e, e1, e2, e3, e4⟩ := shiftColumn_ok h2 h1 hy hl
    have hc : ∀ c' ∈ cs, t.col c' = d₂.col c' := fun c' hc' => e4 c' (fun e => hn.1 (e ▸ hc'))
    obtain ⟨u, f, f1, f2, f3, f4⟩ := ih hn.2 t (fun c' hc' => by
      obtain ⟨a, b, zs, g, gl⟩ := h c' (by simp [hc'])
      exact ⟨by rw [e1]; exact a, b, zs, by rw [hc c' hc']; exact g, by rw [e2]; exact gl⟩)
    refine ⟨u, ?_, f1.trans e1, f2.trans e2, ?_, ?_⟩
    · simp only [shiftAll, e, bind, Except.bind]; exact f
    · intro c' hc'
      rcases List.mem_cons.mp hc' with rfl | hm
      · rw [f4 c' hn.1, e3]; exact hy
      · rw [← hc c' hm]; exact f3 c' hm
    · intro c' hc'
      rw [List.mem_cons, not_or] at hc'
      rw [f4 c' hc'.2, e4 c' hc'.1]

theorem shiftColumn_some {d₁ d₂ t : Table} {c : Str} (h : shiftColumn d₁ d₂ c = .ok t) :
    c ∈ d₂.columns ∧ c ∈ d₁.columns ∧ d₂.rows ≠ [] ∧ d₁.rows ≠ [] ∧ t.columns = d₂.columns := by
  unfold shiftColumn at h
  split at h
  · rename_i h2
    split at h
    · rename_i h1
      cases hy : newColumn (d₁.col c) (d₂.col c) with
      | error e => rw [hy] at h; cases h
      | ok ys =>
        rw [hy] at h
        simp only [bind, Except.bind, Except.ok.injEq] at h
        subst h
        refine ⟨h2, h1, ?_, ?_, rfl⟩
        · intro e; rw [Table.col, Table.col, e] at hy; cases hy
        · intro e
          rw [Table.col, Table.col, e] at hy
          cases hr : d₂.rows with
          | nil => rw [hr] at hy; cases hy
          | cons a b => rw [hr] at hy; cases hy
    · cases h
  · cases h

theorem shiftAll_some {d₁ : Table} (cs : List Str) (d₂ t : Table) (h : shiftAll d₁ cs d₂ = .ok t) :
    (∀ c ∈ cs, c ∈ d₂.columns ∧ c ∈ d₁.columns) ∧ (cs ≠ [] → d₂.rows ≠ [] ∧ d₁.rows ≠ []) := by
  induction cs generalizing d₂ with
  | nil => exact ⟨by simp, fun h => absurd rfl h⟩
  | cons c cs ih =>
    cases hs : shiftColumn d₁ d₂ c with
    | error e => rw [shiftAll, hs] at h; cases h
    | ok u =>
      rw [shiftAll, hs] at h
      obtain ⟨a, b, x, y, z⟩ := shiftColumn_some hs
      obtain ⟨i, _⟩ := ih u h
      refine ⟨?_, fun _ => ⟨x, y⟩⟩
      intro c' hc'
      rcases List.mem_cons.mp hc' with rfl | hm
      · exact ⟨a, b⟩
      · rw [← z]; exact i c' hm

theorem readMaccor_holds {env : Env} {fs : Files} {f l : Str} {t : Table} (h : Holds env fs f l t) :
    readMaccor env fs f = .ok (l, t) := by
  obtain ⟨ls, a, b⟩ := h
  simp only [readMaccor, a, b, bind, Except.bind]

theorem part_concat (t : Table) (c : Str) :
    Part t c (t.rows.map (fun r => if c ∈ t.columns then r c else Cell.missing)) := by
  refine ⟨fun h => by simp only [if_pos h], fun h => ?_⟩
  simp only [if_neg h]
  exact List.map_const' ..

end Beep.Proof.SpliceFile
