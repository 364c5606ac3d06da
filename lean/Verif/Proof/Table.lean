import Verif.Proof.Pandas
import Verif.Model.Table
/-
Lemmas about data frame operations.
-/
namespace Beep.Proof.Table
open Beep Pandas Text Table

/-! ### Imputation -/

theorem filterMap_id_nil (vs : List (Option Rat)) : vs.filterMap id = [] ↔ ¬ ∃ v, some v ∈ vs := by
  induction vs with
  | nil => simp
  | cons a l ih =>
    cases a with
    | none =>
      rw [List.filterMap_cons_none (by rfl), ih]; simp
    | some v => simp

theorem medianN_none (vs : List (Option Rat)) : medianN vs = none ↔ ¬ ∃ v, some v ∈ vs := by
  rw [← filterMap_id_nil]
  unfold medianN
  have hl := length_sortBy (fun a b : Rat => decide (a ≤ b)) (vs.filterMap id)
  generalize hs : sortBy (fun a b : Rat => decide (a ≤ b)) (vs.filterMap id) = s at hl
  have hz : vs.filterMap id = [] ↔ s.length = 0 := by rw [hl, List.length_eq_zero_iff]
  rw [hz]
  simp only
  split
  · rw [List.getElem?_eq_none_iff]; omega
  · by_cases h0 : s.length = 0
    · have : s[s.length / 2]? = none := by rw [List.getElem?_eq_none_iff]; omega
      rw [this]
      split <;> simp_all
    · rw [List.getElem?_eq_getElem (by omega : s.length / 2 - 1 < s.length),
        List.getElem?_eq_getElem (by omega : s.length / 2 < s.length)]
      simp [h0]

theorem countN_eq_zero (vs : List (Option Rat)) : countN vs = 0 ↔ ¬ ∃ v, some v ∈ vs := by
  induction vs with
  | nil => simp [countN]
  | cons a l ih => cases a <;> simp [countN, ih]

theorem meanN_none (vs : List (Option Rat)) : meanN vs = none ↔ ¬ ∃ v, some v ∈ vs := by
  rw [← countN_eq_zero]; unfold meanN; split <;> simp_all

/-- imputing fills a column exactly when it has a value in some row -/
theorem fillCol_isSome (m : Impute) (hm : m = .median ∨ m = .mean) (rows : List Str) (c : Col) (r : Str)
    (hr : r ∈ rows) : ((fillCol m rows c).cell r).isSome = true ↔ ∃ q ∈ rows, (c.cell q).isSome = true := by
  have hv : fillValue m (rows.map c.cell) = none ↔ ¬ ∃ q ∈ rows, (c.cell q).isSome = true := by
    have e : (∃ v, some v ∈ rows.map c.cell) ↔ ∃ q ∈ rows, (c.cell q).isSome = true := by
      simp only [List.mem_map]
      constructor
      · rintro ⟨v, q, hq, e⟩; exact ⟨q, hq, by simp [e]⟩
      · rintro ⟨q, hq, e⟩
        obtain ⟨v, hv⟩ := Option.isSome_iff_exists.mp e
        exact ⟨v, q, hq, hv⟩
    rcases hm with rfl | rfl
    · rw [← e]; exact medianN_none _
    · rw [← e]; exact meanN_none _
  unfold fillCol
  simp only
  cases hc : c.cell r with
  | some x => simp only [Option.isSome_some, true_iff]; exact ⟨r, hr, by simp [hc]⟩
  | none =>
    simp only
    constructor
    · intro h
      by_contra hn
      rw [hv.mpr hn] at h
      cases h
    · intro h
      by_contra hn
      rw [Option.not_isSome_iff_eq_none] at hn
      exact hv.mp hn h

theorem fillCol_some (m : Impute) (rows : List Str) (c : Col) (r : Str) (x : Rat) (h : c.cell r = some x) :
    (fillCol m rows c).cell r = some x := by
  unfold fillCol; simp [h]

theorem fillCol_name (m : Impute) (rows : List Str) (c : Col) : (fillCol m rows c).name = c.name := rfl

theorem impute_ok {m : Impute} {t u : Table} (h : impute m t = .ok u) :
    u = { t with cols := t.cols.map (fillCol m t.rows) } := by
  unfold impute at h
  split at h
  · cases h
  · cases h; rfl

/-! ### Counting present cells by rows and by columns -/

theorem double_count (rows : List Str) (cols : List Col) :
    (rows.map (colsWith cols)).sum = (cols.map (rowsWith rows)).sum := by
  induction rows with
  | nil =>
    have : (cols.map (rowsWith [])).sum = 0 := by
      induction cols with
      | nil => rfl
      | cons c cs ih => simpa [rowsWith] using ih
    simp [this]
  | cons r rows ih =>
    have : (cols.map (rowsWith (r :: rows))).sum = colsWith cols r + (cols.map (rowsWith rows)).sum := by
      clear ih
      induction cols with
      | nil => rfl
      | cons c cs ih =>
        rw [List.map_cons, List.sum_cons, ih, List.map_cons, List.sum_cons]
        unfold rowsWith colsWith
        by_cases hc : (c.cell r).isSome = true
        · simp only [List.filter_cons, hc, if_true, List.length_cons]; omega
        · simp only [List.filter_cons, hc, Bool.false_eq_true, if_false]; omega
    rw [List.map_cons, List.sum_cons, ih, this]

theorem colsWith_le (cols : List Col) (r : Str) : colsWith cols r ≤ cols.length := List.length_filter_le ..

theorem rowsWith_le (rows : List Str) (c : Col) : rowsWith rows c ≤ rows.length := List.length_filter_le ..

theorem sum_lower (cols : List Col) (rows : List Str) (a : Rat) (h : ∀ c ∈ cols, a ≤ rowsWith rows c) :
    a * cols.length ≤ ((cols.map (rowsWith rows)).sum : Nat) := by
  induction cols with
  | nil => simp
  | cons c cs ih =>
    have h1 := h c (by simp)
    have h2 := ih (fun d hd => h d (by simp [hd]))
    rw [List.map_cons, List.sum_cons, List.length_cons]
    push_cast
    nlinarith

/-- the rows that stay have at most every column, the others less than `b` -/
theorem sum_upper (rows : List Str) (cols : List Col) (b : Rat) :
    (((rows.map (colsWith cols)).sum : Nat) : Rat) ≤
      cols.length * ((rows.filter (fun r => b ≤ colsWith cols r)).length : Nat) +
        b * ((rows.filter (fun r => ¬ b ≤ colsWith cols r)).length : Nat) ∧
    (0 < (rows.filter (fun r => ¬ b ≤ colsWith cols r)).length →
      (((rows.map (colsWith cols)).sum : Nat) : Rat) <
      cols.length * ((rows.filter (fun r => b ≤ colsWith cols r)).length : Nat) +
        b * ((rows.filter (fun r => ¬ b ≤ colsWith cols r)).length : Nat)) := by
  induction rows with
  | nil => simp
  | cons r rows ih =>
    have hl : ((colsWith cols r : Nat) : Rat) ≤ cols.length := by exact_mod_cast colsWith_le cols r
    obtain ⟨ih1, ih2⟩ := ih
    rw [List.map_cons, List.sum_cons]
    by_cases hb : b ≤ colsWith cols r
    · simp only [List.filter_cons, hb, decide_true, if_true, not_true, decide_false, Bool.false_eq_true,
        if_false, List.length_cons]
      push_cast
      refine ⟨by linarith, fun h => ?_⟩
      have := ih2 h
      linarith
    · simp only [List.filter_cons, hb, decide_true, if_true, not_false_eq_true, decide_false,
        Bool.false_eq_true, if_false, List.length_cons]
      push_cast
      have hb' := not_le.mp hb
      exact ⟨by linarith, fun _ => by linarith⟩

theorem length_filter_not {α : Type} (p : α → Prop) [DecidablePred p] (l : List α) :
    (l.filter (fun a => p a)).length + (l.filter (fun a => ¬ p a)).length = l.length := by
  induction l with
  | nil => rfl
  | cons a l ih =>
    by_cases h : p a
    · simp only [List.filter_cons, h, decide_true, if_true, not_true, decide_false, Bool.false_eq_true,
        if_false, List.length_cons]; omega
    · simp only [List.filter_cons, h, decide_true, if_true, not_false_eq_true, decide_false,
        Bool.false_eq_true, if_false, List.length_cons]; omega

/-- if the thresholds leave enough overlap, every column that is kept has a value in some row that is
kept -/
theorem kept_overlap (rows : List Str) (cols : List Col) (f s : Rat) (hf : 0 < f)
    (hs : s ≤ 1) (hfs : 1 - f ≤ f * (1 - s)) (hr : rows ≠ [])
    (hk : ∀ c ∈ cols, f * rows.length ≤ rowsWith rows c) (c : Col) (hc : c ∈ cols) :
    ∃ q ∈ rows.filter (fun r => s * cols.length ≤ colsWith cols r), (c.cell q).isSome = true := by
  by_contra hn
  simp only [not_exists, not_and, List.mem_filter, decide_eq_true_eq, and_imp] at hn
  have hn' : 0 < (rows.length : Rat) := by
    have := List.length_pos_iff.mpr hr
    exact_mod_cast this
  have hm : 0 < (cols.length : Rat) := by
    have := List.length_pos_iff.mpr (List.ne_nil_of_mem hc)
    exact_mod_cast this
  -- the rows having `c` are dropped
  have h1 : (rowsWith rows c : Rat) ≤
      ((rows.filter (fun r => ¬ s * cols.length ≤ colsWith cols r)).length : Nat) := by
    unfold rowsWith
    have : ((rows.filter (fun r => (c.cell r).isSome)).length : Nat) ≤
        (rows.filter (fun r => ¬ s * cols.length ≤ colsWith cols r)).length := by
      rw [← List.countP_eq_length_filter, ← List.countP_eq_length_filter]
      apply List.countP_mono_left
      intro r hr hp
      simp only [decide_eq_true_eq]
      intro hle
      exact hn r hr hle hp
    exact_mod_cast this
  have h2 := hk c hc
  have h3 := sum_lower cols rows _ hk
  have hD : 0 < (rows.filter (fun r => ¬ s * cols.length ≤ colsWith cols r)).length := by
    have h0 := lt_of_lt_of_le (mul_pos hf hn') (le_trans h2 h1)
    exact_mod_cast h0
  have h4 := (sum_upper rows cols (s * cols.length)).2 hD
  have h5 := length_filter_not (fun r => s * cols.length ≤ colsWith cols r) rows
  rw [← double_count] at h3
  generalize ((rows.map (colsWith cols)).sum : Nat) = S at h3 h4
  generalize (rows.filter (fun r => ¬ s * cols.length ≤ colsWith cols r)).length = D at *
  generalize (rows.filter (fun r => s * cols.length ≤ colsWith cols r)).length = K at *
  have h5' : (K : Rat) + D = rows.length := by exact_mod_cast h5
  generalize (rows.length : Rat) = n at *
  generalize (cols.length : Rat) = M at *
  have h6 : f * n * M < M * n - (1 - s) * M * D := by
    have : M * (K : Rat) = M * n - M * D := by rw [← h5']; ring
    nlinarith
  have h7 : f * n ≤ (D : Rat) := le_trans h2 h1
  have h8 : (1 - s) * D < (1 - f) * n := by
    have : M * ((1 - s) * D) < M * ((1 - f) * n) := by nlinarith
    exact lt_of_mul_lt_mul_left this (le_of_lt hm)
  have h9 : (1 - f) * n ≤ f * (1 - s) * n := mul_le_mul_of_nonneg_right hfs (le_of_lt hn')
  have h10 : (1 - s) * (f * n) ≤ (1 - s) * D := mul_le_mul_of_nonneg_left h7 (by linarith)
  linarith

/-! ### Column names -/

theorem splitD_ne_nil (s : Str) : splitD s ≠ [] := by
  induction s using splitD.induct with
  | case1 => simp [splitD]
  | case2 s ih => simp [splitD]
  | case3 c s hc h ih => exact absurd h ih
  | case4 c s hc p ps h ih => 
    rw [splitD]
    · rw [h]; simp
    · exact hc

theorem splitD_cons (c : Char) (s : Str) (hc : ¬ (c = ':' ∧ ∃ t, s = ':' :: t)) :
    splitD (c :: s) = match splitD s with
      | [] => [[c]]
      | p :: ps => (c :: p) :: ps := by
  rw [splitD]
  · rfl
  · rintro t rfl rfl
    exact hc ⟨rfl, t, rfl⟩

/-- joining the first pieces again gives a beginning of the text -/
theorem join_take_prefix (s : Str) (k : Nat) : join [':', ':'] ((splitD s).take (k + 1)) <+: s := by
  induction s using splitD.induct generalizing k with
  | case1 => simp [splitD, join]
  | case2 s ih =>
    rw [splitD]
    cases k with
    | zero => simp [join]
    | succ k =>
      rw [List.take_succ_cons]
      have hne : (splitD s).take (k + 1) ≠ [] := by
        cases h : splitD s with
        | nil => exact absurd h (splitD_ne_nil s)
        | cons => simp
      have := ih k
      cases h : (splitD s).take (k + 1) with
      | nil => exact absurd h hne
      | cons a l =>
        rw [h] at this
        simp only [join, List.nil_append]
        exact (List.prefix_append_right_inj [':', ':']).mpr this
  | case3 c s hc h ih => exact absurd h (splitD_ne_nil s)
  | case4 c s hc p ps h ih =>
    have hc' : ¬ (c = ':' ∧ ∃ t, s = ':' :: t) := by rintro ⟨rfl, t, rfl⟩; exact hc t rfl rfl
    rw [splitD_cons c s hc', h]
    have := ih k
    rw [h, List.take_succ_cons] at this
    simp only [List.take_succ_cons]
    cases hl : ps.take k with
    | nil => rw [hl] at this; simpa [join] using this
    | cons a l =>
      rw [hl] at this
      simp only [join, List.cons_append] at this ⊢
      exact List.cons_prefix_cons.mpr ⟨rfl, this⟩

theorem splitD_join_take (s : Str) (k : Nat) :
    splitD (join [':', ':'] ((splitD s).take (k + 1))) = (splitD s).take (k + 1) := by
  induction s using splitD.induct generalizing k with
  | case1 => simp [splitD, join]
  | case2 s ih =>
    rw [splitD]
    cases k with
    | zero => simp [join, splitD]
    | succ k =>
      rw [List.take_succ_cons]
      cases h : (splitD s).take (k + 1) with
      | nil =>
        cases h' : splitD s with
        | nil => exact absurd h' (splitD_ne_nil s)
        | cons => rw [h'] at h; simp at h
      | cons a l =>
        have := ih k
        rw [h] at this
        simp only [join, List.nil_append, List.cons_append]
        rw [splitD, this]
  | case3 c s hc h ih => exact absurd h (splitD_ne_nil s)
  | case4 c s hc p ps h ih =>
    have hc' : ¬ (c = ':' ∧ ∃ t, s = ':' :: t) := by rintro ⟨rfl, t, rfl⟩; exact hc t rfl rfl
    have hpre := join_take_prefix s k
    have ih := ih k
    rw [splitD_cons c s hc', h]
    rw [h, List.take_succ_cons] at hpre ih
    simp only [List.take_succ_cons]
    have hj : join [':', ':'] ((c :: p) :: ps.take k) = c :: join [':', ':'] (p :: ps.take k) := by
      cases ps.take k <;> simp [join]
    rw [hj, splitD_cons, ih]
    rintro ⟨rfl, t, ht⟩
    rw [ht] at hpre
    obtain ⟨u, hu⟩ := hpre
    exact hc' ⟨rfl, t ++ u, by rw [← hu]; rfl⟩

theorem stripName_idem (s : Str) : stripName (stripName s) = stripName s := by
  unfold stripName
  rw [splitD_join_take s 1, List.take_take]
  rfl

theorem rename_idem (t : Table) : (t.rename stripName).rename stripName = t.rename stripName := by
  unfold Table.rename
  simp [stripName_idem]

/-! ### Lookup by name -/

theorem filter_name (cols : List Col) (hn : (cols.map Col.name).Nodup) (n : Str) :
    cols.filter (fun c => c.name = n) = (cols.find? (fun c => c.name = n)).toList := by
  induction cols with
  | nil => rfl
  | cons c cs ih =>
    rw [List.map_cons, List.nodup_cons] at hn
    by_cases h : c.name = n
    · simp only [List.filter_cons, List.find?_cons, h, decide_true, if_true, Option.toList_some]
      have : cs.filter (fun c => c.name = n) = [] := by
        rw [List.filter_eq_nil_iff]
        intro d hd
        simp only [decide_eq_true_eq]
        intro e
        exact hn.1 (List.mem_map.mpr ⟨d, hd, by rw [e, h]⟩)
      rw [this]
    · simp only [List.filter_cons, List.find?_cons, h, decide_false, Bool.false_eq_true, if_false]
      exact ih hn.2

theorem viaDict_fold (cols : List Col) (d : Dict Str Col) (hd : (cols.map Col.name).Nodup)
    (h : ∀ c ∈ cols, c.name ∉ Dict.keys d) :
    cols.foldl (fun d c => Dict.set d c.name c) d = d ++ cols.map (fun c => (c.name, c)) := by
  induction cols generalizing d with
  | nil => simp
  | cons c cs ih =>
    rw [List.map_cons, List.nodup_cons] at hd
    have hset : Dict.set d c.name c = d ++ [(c.name, c)] := by
      have hc := h c (by simp)
      clear ih h hd
      induction d with
      | nil => rfl
      | cons kv d ih =>
        obtain ⟨k, v⟩ := kv
        simp only [Dict.keys, List.map_cons, List.mem_cons, not_or] at hc
        have : k ≠ c.name := fun e => hc.1 e.symm
        simp only [Dict.set, this, if_false, List.cons_append]
        rw [ih hc.2]
    rw [List.foldl_cons, hset, ih _ hd.2]
    · simp
    · intro e he
      simp only [Dict.keys, List.map_append, List.map_cons, List.map_nil, List.mem_append,
        List.mem_singleton, not_or]
      refine ⟨h e (by simp [he]), fun e' => hd.1 (List.mem_map.mpr ⟨e, he, e'⟩)⟩

theorem viaDict_id (t : Table) (hn : t.names.Nodup) (hc : t.cols ≠ []) : t.viaDict = t := by
  unfold Table.viaDict
  rw [viaDict_fold t.cols [] hn (by simp [Dict.keys])]
  cases t with
  | mk rows cols => cases cols with
    | nil => exact absurd rfl hc
    | cons c cs => simp [Function.comp_def]

end Beep.Proof.Table
