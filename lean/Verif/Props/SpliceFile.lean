import Verif.Proof.SpliceFile
/-
C181: what a spliced Maccor file holds.
-/
namespace Beep.SpliceFile
open Beep Spec.SpliceFile Proof.SpliceFile

/-- C181: two files with rows and all counters are spliced.  Only the output is written.  It holds the metadata line of
the first file, the columns of the first file followed by those only the second has, and the rows of the first file
followed by those of the second.  A cell is that of the file the row is from, or missing if that file has no such
column.  A counter of the second file has the last value of the first added if it begins below that; a counter of texts
has the last text of the first file put behind each of its texts if it begins with one that is sorted before that. -/
theorem C181_spliced (env : Env) (fs : Files) (input₁ input₂ output l₁ l₂ : Str) (d₁ d₂ : Table)
    (h₁ : Holds env fs input₁ l₁ d₁) (h₂ : Holds env fs input₂ l₂ d₂) (p : Proper d₁ d₂) :
    ∃ fs', runSplice env fs input₁ input₂ output = .ok fs' ∧ (∀ f, f ≠ output → fs' f = fs f) ∧
      ∃ columns more rows, fs' output = some (l₁ :: env.toCsv columns rows) ∧
        columns = d₁.columns ++ more ∧ more.Sublist d₂.columns ∧ (∀ c, c ∈ more ↔ c ∈ d₂.columns ∧ c ∉ d₁.columns) ∧
        rows.length = d₁.rows.length + d₂.rows.length ∧ (∀ r ∈ rows, r.length = columns.length) ∧
        ∀ (k : Nat) (c : Str), columns[k]? = some c → ∃ a b, rows.map (fun r => r[k]?) = (a ++ b).map some ∧ Part d₁ c a ∧
          (¬ Counter c → Part d₂ c b) ∧
          (Counter c → ∀ xs ys, Numbers d₁ c xs → Numbers d₂ c ys → ∃ zs, GoOn xs ys zs ∧
            b = zs.map (fun z => z.elim Cell.missing Cell.num)) ∧
          (Counter c → ∀ xs ys last first, Texts d₁ c xs → Texts d₂ c ys → xs.getLast? = some last → ys.head? = some first →
            b = (ys.map (fun y => if first < last then y ++ last else y)).map Cell.text) := by
  have nd : columnsToUpdate.Nodup := by decide
  have ne : ∀ {α : Type} (t : Table) (xs : List α) (f : α → Cell) (c : Str), t.rows ≠ [] → t.rows.map (fun r => r c) = xs.map f →
      xs ≠ [] ∧ xs.length = t.rows.length := by
    intro α t xs f c h e
    have l : xs.length = t.rows.length := by simpa using (congrArg List.length e).symm
    exact ⟨fun h' => h (List.length_eq_zero_iff.mp (by rw [← l, h']; rfl)), l⟩
  obtain ⟨t, e, ec, el, ek, eo⟩ := shiftAll_ok (d₁ := d₁) columnsToUpdate nd d₂ (by
    intro c hc
    obtain ⟨c1, c2, ⟨xs, ys, n1, n2⟩ | ⟨xs, ys, n1, n2⟩⟩ := p.2.2 c ((counter_iff c).mp hc)
    · obtain ⟨nx, lx⟩ := ne d₁ xs _ c p.1 n1
      obtain ⟨ny, ly⟩ := ne d₂ ys _ c p.2.1 n2
      obtain ⟨zs, key, kl, _⟩ := newColumn_numbers nx ny
      refine ⟨c2, c1, _, (show newColumn (d₁.col c) (d₂.col c) = _ from ?_).trans key, ?_⟩
      · rw [Table.col, Table.col, n1, n2]; rfl
      · simp [kl, ly]
    · obtain ⟨nx, lx⟩ := ne d₁ xs _ c p.1 n1
      obtain ⟨ny, ly⟩ := ne d₂ ys _ c p.2.1 n2
      have key := newColumn_texts (List.getLast?_eq_some_getLast nx) (List.head?_eq_some_head ny)
      refine ⟨c2, c1, _, (show newColumn (d₁.col c) (d₂.col c) = _ from ?_).trans key, ?_⟩
      · rw [Table.col, Table.col, n1, n2]
      · simp [ly])
  refine ⟨writeMaccor env fs l₁ (concat d₁ t) output, ?_, ?_, ?_⟩
  · simp only [runSplice, readMaccor_holds h₁, readMaccor_holds h₂, e, bind, Except.bind]
  · intro f hf; simp only [writeMaccor, if_neg hf]
  · refine ⟨(concat d₁ t).columns, t.columns.filter (fun c => c ∉ d₁.columns),
      (concat d₁ t).rows.map (fun r => (concat d₁ t).columns.map r), by simp only [writeMaccor, if_true], rfl, ?_, ?_, ?_, ?_, ?_⟩
    · rw [ec]; exact List.filter_sublist
    · intro c; simp [ec]
    · simp [concat, el]
    · intro r hr
      simp only [List.mem_map] at hr
      obtain ⟨_, _, rfl⟩ := hr
      simp
    · intro k c hk
      refine ⟨d₁.rows.map (fun r => if c ∈ d₁.columns then r c else Cell.missing),
        t.rows.map (fun r => if c ∈ t.columns then r c else Cell.missing), ?_, part_concat d₁ c, ?_, ?_, ?_⟩
      · rw [List.map_map]
        have : ((fun r : List Cell => r[k]?) ∘ fun r : Str → Cell => (concat d₁ t).columns.map r) =
            fun r => some (r c) := by
          funext r
          simp only [Function.comp, List.getElem?_map]
          have : (concat d₁ t).columns[k]? = some c := hk
          rw [this]; rfl
        rw [this]
        simp [concat, Function.comp_def]
      · intro hc
        have hcol := eo c (fun h => hc ((counter_iff c).mp h))
        obtain ⟨a, b⟩ := part_concat t c
        refine ⟨fun h => ?_, fun h => ?_⟩
        · rw [a (by rw [ec]; exact h)]; exact hcol
        · rw [b (by rw [ec]; exact h), el]
      · intro hc xs ys n1 n2
        have hcol := ek c ((counter_iff c).mpr hc)
        obtain ⟨zs, key, _, g⟩ := newColumn_numbers (ne d₁ xs _ c p.1 n1).1 (ne d₂ ys _ c p.2.1 n2).1
        rw [Table.col, Table.col, n1, n2] at hcol
        refine ⟨zs, g, ?_⟩
        rw [(part_concat t c).1 (by rw [ec]; exact (p.2.2 c hc).2.1)]
        exact (Except.ok.inj (key.symm.trans hcol)).symm
      · intro hc xs ys last first n1 n2 hx hy
        have hcol := ek c ((counter_iff c).mpr hc)
        rw [Table.col, Table.col, n1, n2, newColumn_texts hx hy] at hcol
        rw [(part_concat t c).1 (by rw [ec]; exact (p.2.2 c hc).2.1)]
        exact (Except.ok.inj hcol).symm

/-- C181: if a file has no rows or lacks one of the counters, splicing is refused and nothing is written. -/
theorem C181_refused (env : Env) (fs : Files) (input₁ input₂ output l₁ l₂ : Str) (d₁ d₂ : Table)
    (h₁ : Holds env fs input₁ l₁ d₁) (h₂ : Holds env fs input₂ l₂ d₂)
    (h : d₁.rows = [] ∨ d₂.rows = [] ∨ ∃ c, Counter c ∧ (c ∉ d₁.columns ∨ c ∉ d₂.columns)) :
    ∃ err, runSplice env fs input₁ input₂ output = .error err := by
  cases hs : shiftAll d₁ columnsToUpdate d₂ with
  | error e => exact ⟨e, by simp only [runSplice, readMaccor_holds h₁, readMaccor_holds h₂, hs, bind, Except.bind]⟩
  | ok t =>
    obtain ⟨a, b⟩ := shiftAll_some _ _ _ hs
    obtain ⟨b2, b1⟩ := b (by decide)
    rcases h with h | h | ⟨c, hc, h | h⟩
    · exact absurd h b1
    · exact absurd h b2
    · exact absurd (a c ((counter_iff c).mpr hc)).2 h
    · exact absurd (a c ((counter_iff c).mpr hc)).1 h

/-- a table with a further column `x` and one row, with the same number everywhere -/
def exTable (x : Str) (n : Rat) : Table := ⟨columnsToUpdate ++ [x], [fun _ => .num n]⟩

/-- two files with different further columns -/
example : ∃ (env : Env) (fs : Files), Holds env fs ['a'] ['1'] (exTable ['x'] 3) ∧ Holds env fs ['b'] ['2'] (exTable ['y'] 1) ∧
    Proper (exTable ['x'] 3) (exTable ['y'] 1) := by
  refine ⟨⟨fun ls => if ls = [['p']] then .ok (exTable ['x'] 3) else .ok (exTable ['y'] 1), fun _ _ => []⟩,
    fun f => if f = ['a'] then some [['1'], ['p']] else some [['2'], ['q']], ⟨_, rfl, rfl⟩, ⟨_, rfl, rfl⟩, by simp [exTable], by simp [exTable],
    fun c hc => ⟨List.mem_append_left _ ((counter_iff c).mpr hc), List.mem_append_left _ ((counter_iff c).mpr hc),
      .inl ⟨[some 3], [some 1], rfl, rfl⟩⟩⟩

/-- a file without rows -/
example : ∃ (env : Env) (fs : Files), Holds env fs ['a'] ['1'] (exTable ['x'] 3) ∧ Holds env fs ['b'] ['2'] ⟨columnsToUpdate, []⟩ :=
  ⟨⟨fun ls => if ls = [['p']] then .ok (exTable ['x'] 3) else .ok ⟨columnsToUpdate, []⟩, fun _ _ => []⟩,
    fun f => if f = ['a'] then some [['1'], ['p']] else some [['2'], ['q']], ⟨_, rfl, rfl⟩, ⟨_, rfl, rfl⟩⟩

end Beep.SpliceFile
