import Verif.Proof.Table
import Verif.Spec.Splitter
/-
Lemmas about the splitter.
-/
namespace Beep.Proof.Splitter
open Beep Pandas Text Table Splitter Spec.Splitter Proof.Table

/-! ### What a successful constructor did -/

/-- the samples the exclusion columns let through -/
def passes (a : Args) (grp : Str → Str) (t : Table) (r : Str) : Bool :=
  match a.exclusion with
  | Option.none => true
  | some excl => included excl t r && match a.splitCols with
    | Option.none => true
    | some _ => !((excludedGroups a.dropSplit grp (included excl t) t.rows).contains (grp r))

theorem applyExclusion_ok {a : Args} {grp : Str → Str} {t u : Table} (h : applyExclusion a grp t = .ok u) :
    u = { t with rows := t.rows.filter (passes a grp t) } := by
  unfold applyExclusion at h
  split at h
  · rename_i he
    cases h
    have : passes a grp t = fun _ => true := by funext r; simp [passes, he]
    rw [this]
    simp
  · cases h
  · rename_i excl hne he
    simp only at h
    split at h
    · rename_i hs
      cases h
      have : passes a grp t = included excl t := by funext r; simp [passes, he, hs]
      rw [this]
    · rename_i l hs
      cases h
      have : passes a grp t = fun r => included excl t r &&
          !((excludedGroups a.dropSplit grp (included excl t) t.rows).contains (grp r)) := by
        funext r; simp [passes, he, hs]
      rw [this]

/-- columns after the feature threshold -/
def kept (a : Args) (m : Table) : Table :=
  (m.select (a.features ++ a.splitCols.getD [] ++ a.exclusion.getD [])).dropCols a.featThresh

/-- samples after the sample threshold -/
def sampled (a : Args) (m : Table) : Table :=
  (kept a m).dropRows (a.sampleThresh * (kept a m).cols.length)

/-- the frame after imputation -/
def filled (a : Args) (m : Table) : Table :=
  let t := fillFalse (a.exclusion.getD []) (sampled a m)
  { t with cols := t.cols.map (fillCol a.impute t.rows) }

def hasTargets (a : Args) (m : Table) (r : Str) : Bool :=
  (m.select a.targets).cols.all (fun c => (c.cell r).isSome)

theorem clean_ok {env : Env} {a : Args} {m X y : Table} {grp : Str → Str}
    (h : clean env a m = .ok (X, y, grp)) :
    missing m (a.targets ++ a.features ++ a.splitCols.getD [] ++ a.exclusion.getD []) = [] ∧
    grp = groupOf env (filled a m) (a.splitCols.getD []) ∧
    missing (sampled a m) (a.exclusion.getD []) = [] ∧
    missing (filled a m) (a.splitCols.getD []) = [] ∧
    a.impute ≠ .other ∧
    2 ≤ X.rows.length ∧
    1 ≤ X.cols.length + (if a.splitCols.isSome then 1 else 0) ∧
    X = { filled a m with rows := X.rows } ∧
    y = { m.select a.targets with rows := X.rows } ∧
    X.rows = ((filled a m).rows.filter (passes a grp (filled a m))).filter (hasTargets a m) ∧
    (a.dropNanTargets = true ∨
      ∀ r ∈ (filled a m).rows.filter (passes a grp (filled a m)), hasTargets a m r = true) := by
  unfold clean at h
  simp only [bind, Except.bind] at h
  split at h
  · cases h
  rename_i hm
  rw [not_not] at hm
  split at h
  · cases h
  rename_i u1 hn1
  unfold need at hn1
  split at hn1
  swap
  · cases hn1
  rename_i hx
  split at h
  · cases h
  rename_i t3 h3
  have hoth : a.impute ≠ .other := by
    intro e; rw [e] at h3; cases h3
  have e3 := impute_ok h3
  have e3' : t3 = filled a m := e3
  clear e3 h3
  subst e3'
  split at h
  · cases h
  rename_i u2 hn2
  unfold need at hn2
  split at hn2
  swap
  · cases hn2
  rename_i hsm
  split at h
  · cases h
  rename_i t4 h4
  have e4 := applyExclusion_ok h4
  clear h4
  subst e4
  dsimp only at h
  generalize (if a.splitCols.isSome = true then 1 else 0) = e at h ⊢
  split at h
  · cases h
  rename_i hsz
  simp only [not_or, not_lt] at hsz
  obtain ⟨hsz1, hsz2⟩ := hsz
  split at h
  · rename_i hall
    cases h
    have hall' : ∀ r ∈ (filled a m).rows.filter
        (passes a (groupOf env (filled a m) (a.splitCols.getD [])) (filled a m)), hasTargets a m r = true := by
      rw [List.all_eq_true] at hall
      exact hall
    refine ⟨hm, rfl, hx, hsm, hoth, hsz1, hsz2, rfl, rfl, ?_, Or.inr hall'⟩
    exact (List.filter_eq_self.mpr hall').symm
  · split at h
    · rename_i hd
      split at h
      · cases h
      · rename_i hy
        cases h
        refine ⟨hm, rfl, hx, hsm, hoth, ?_, hsz2, rfl, rfl, rfl, Or.inl hd⟩
        exact not_lt.mp hy
    · cases h

theorem construct_ok {env : Env} {a : Args} {m : Table} {s : Splitter} (h : construct env a m = .ok s) :
    s.matrix = (if a.homogenize then m.rename stripName else m) ∧ s.args = a ∧
    clean env a s.matrix = .ok (s.X, s.y, s.grouping) ∧
    s.featureLabels = s.X.names.filter (fun c => c ∈ a.features) ∧ s.datasets = [] := by
  unfold construct at h
  simp only [bind, Except.bind] at h
  split at h
  · cases h
  rename_i p hp
  cases h
  exact ⟨rfl, rfl, hp, rfl, rfl⟩

theorem rename_rows (m : Table) (f : Str → Str) : (m.rename f).rows = m.rows := rfl

theorem construct_rows {env : Env} {a : Args} {m : Table} {s : Splitter} (h : construct env a m = .ok s) :
    s.X.rows.Sublist m.rows ∧ s.y.rows = s.X.rows := by
  obtain ⟨h1, -, h3, -⟩ := construct_ok h
  obtain ⟨-, -, -, -, -, -, -, -, hy, hr, -⟩ := clean_ok h3
  constructor
  · rw [hr]
    refine (List.filter_sublist).trans ((List.filter_sublist).trans ?_)
    show (List.filter _ s.matrix.rows).Sublist m.rows
    have : s.matrix.rows = m.rows := by rw [h1]; split <;> rfl
    rw [this]
    exact List.filter_sublist
  · rw [hy]

/-! ### Folds -/

theorem sum_foldSizes_aux (q r k : Nat) :
    ((List.range k).map (fun i => q + if i < r then 1 else 0)).sum = k * q + min k r := by
  induction k with
  | zero => simp
  | succ k ih =>
    rw [List.range_succ, List.map_append, List.sum_append, ih]
    simp only [List.map_cons, List.map_nil, List.sum_cons, List.sum_nil]
    have : (k + 1) * q = k * q + q := by ring
    split <;> omega

theorem sum_foldSizes (n k : Nat) (hk : 0 < k) : (foldSizes n k).sum = n := by
  unfold foldSizes
  rw [sum_foldSizes_aux]
  have := Nat.mod_lt n hk
  have := Nat.div_add_mod n k
  omega

theorem flatten_chunks {α : Type} (ss : List Nat) (l : List α) (h : ss.sum = l.length) :
    (chunks ss l).flatten = l := by
  induction ss generalizing l with
  | nil =>
    have : l = [] := List.length_eq_zero_iff.mp (by simpa using h.symm)
    subst this; rfl
  | cons s ss ih =>
    rw [chunks, List.flatten_cons, ih]
    · exact List.take_append_drop ..
    · rw [List.sum_cons] at h
      rw [List.length_drop]; omega

theorem length_chunks {α : Type} (ss : List Nat) (l : List α) : (chunks ss l).length = ss.length := by
  induction ss generalizing l with
  | nil => rfl
  | cons s ss ih => simp [chunks, ih]

/-- an element of a duplicate free concatenation is in exactly one of the pieces -/
theorem mem_one_piece {α : Type} (ls : List (List α)) (h : ls.flatten.Nodup) (a : α) (ha : a ∈ ls.flatten) :
    ∃ i, i < ls.length ∧ ∀ j l, ls[j]? = some l → (a ∈ l ↔ j = i) := by
  induction ls with
  | nil => simp at ha
  | cons l ls ih =>
    rw [List.flatten_cons] at h ha
    obtain ⟨h1, h2, h3⟩ := List.nodup_append.mp h
    by_cases hl : a ∈ l
    · refine ⟨0, by simp, ?_⟩
      intro j l' hj
      cases j with
      | zero => simp only [List.getElem?_cons_zero, Option.some.injEq] at hj; subst hj; simp [hl]
      | succ j =>
        simp only [List.getElem?_cons_succ] at hj
        constructor
        · intro hm
          exact absurd rfl (h3 a hl a (List.mem_flatten.mpr ⟨l', List.mem_of_getElem? hj, hm⟩))
        · intro hm; omega
    · have ha' : a ∈ ls.flatten := by
        rcases List.mem_append.mp ha with e | e
        · exact absurd e hl
        · exact e
      obtain ⟨i, hi, hu⟩ := ih h2 ha'
      refine ⟨i + 1, by simpa using hi, ?_⟩
      intro j l' hj
      cases j with
      | zero => simp only [List.getElem?_cons_zero, Option.some.injEq] at hj; subst hj; simp [hl]
      | succ j =>
        simp only [List.getElem?_cons_succ] at hj
        rw [hu j l' hj]; omega

/-- the folds of `KFold` -/
theorem kfold_ok {sh : List Nat} {n k : Nat} {fs : List (List Nat × List Nat)} (hs : sh.Perm (List.range n))
    (h : kfold sh n k = .ok fs) :
    2 ≤ k ∧ k ≤ n ∧ fs.length = k ∧
    (∀ f ∈ fs, ∃ c : List Nat, f.1 = (List.range n).filter (fun i => !(c.contains i)) ∧
      f.2 = (List.range n).filter (fun i => c.contains i)) ∧
    ∀ i, i < n → ∃ p, p < k ∧ ∀ j f, fs[j]? = some f → (i ∈ f.2 ↔ j = p) := by
  unfold kfold at h
  split at h
  · cases h
  rename_i hk
  cases h
  have hsum : (foldSizes n k).sum = sh.length := by
    rw [sum_foldSizes n k (by omega), hs.length_eq, List.length_range]
  have hfl := flatten_chunks (foldSizes n k) sh hsum
  have hlen : (chunks (foldSizes n k) sh).length = k := by
    rw [length_chunks]; simp [foldSizes]
  refine ⟨by omega, by omega, by rw [List.length_map, hlen], ?_, ?_⟩
  · intro f hf
    obtain ⟨c, -, rfl⟩ := List.mem_map.mp hf
    exact ⟨c, rfl, rfl⟩
  · intro i hi
    have hmem : i ∈ (chunks (foldSizes n k) sh).flatten := by
      rw [hfl, hs.mem_iff]; exact List.mem_range.mpr hi
    have hnd : (chunks (foldSizes n k) sh).flatten.Nodup := by
      rw [hfl, hs.nodup_iff]; exact List.nodup_range
    obtain ⟨p, hp, hu⟩ := mem_one_piece _ hnd i hmem
    refine ⟨p, by omega, ?_⟩
    intro j f hj
    rw [List.getElem?_map] at hj
    cases hc : (chunks (foldSizes n k) sh)[j]? with
    | none => rw [hc] at hj; simp at hj
    | some c =>
      rw [hc] at hj
      simp only [Option.map_some, Option.some.injEq] at hj
      subst hj
      rw [← hu j c hc]
      simp [hi]

theorem filterMap_range_getElem {α : Type} (l : List α) :
    (List.range l.length).filterMap (fun i => l[i]?) = l := by
  induction l with
  | nil => rfl
  | cons a l ih =>
    rw [List.length_cons, List.range_succ_eq_map, List.filterMap_cons]
    simp only [List.getElem?_cons_zero, List.filterMap_map, Function.comp_def, List.getElem?_cons_succ]
    rw [ih]

/-- selecting some positions of a list gives a part of it -/
theorem select_sublist {α : Type} (l : List α) (p : Nat → Bool) :
    (((List.range l.length).filter p).filterMap (fun i => l[i]?)).Sublist l := by
  have h := (List.filter_sublist (p := p) (l := List.range l.length)).filterMap (fun i => l[i]?)
  rwa [filterMap_range_getElem] at h

theorem mem_select {α : Type} [DecidableEq α] (l : List α) (hn : l.Nodup) (p : Nat → Bool) (i : Nat) (a : α)
    (h : l[i]? = some a) : a ∈ ((List.range l.length).filter p).filterMap (fun i => l[i]?) ↔ p i = true := by
  simp only [List.mem_filterMap, List.mem_filter, List.mem_range]
  constructor
  · rintro ⟨j, ⟨hj, hp⟩, e⟩
    have hi : i < l.length := by
      rw [List.getElem?_eq_some_iff] at h; exact h.1
    have : j = i := (List.getElem?_inj hj hn).mp (by rw [e, h])
    rw [← this]; exact hp
  · intro hp
    have hi : i < l.length := by
      rw [List.getElem?_eq_some_iff] at h; exact h.1
    exact ⟨i, ⟨hi, hp⟩, h⟩

/-! ### Columns by name -/

theorem missing_nil {t : Table} {l : List Str} (h : missing t l = []) : ∀ n ∈ l, n ∈ t.names := by
  intro n hn
  unfold missing at h
  rw [List.filter_eq_nil_iff] at h
  simpa using h n hn

theorem find_col {m : Table} {n : Str} (h : n ∈ m.names) :
    m.cols.find? (fun c => c.name = n) = some ⟨n, cellOf m n⟩ := by
  cases hf : m.cols.find? (fun c => c.name = n) with
  | none =>
    rw [List.find?_eq_none] at hf
    obtain ⟨c, hc, e⟩ := List.mem_map.mp h
    exact absurd e (by simpa using hf c hc)
  | some c =>
    have hc := List.find?_some hf
    simp only [decide_eq_true_eq] at hc
    have e : cellOf m n = c.cell := by funext r; simp [cellOf, hf]
    rw [e, ← hc]

theorem filter_col {m : Table} (hn : m.names.Nodup) {n : Str} (h : n ∈ m.names) :
    m.cols.filter (fun c => c.name = n) = [⟨n, cellOf m n⟩] := by
  rw [filter_name m.cols hn, find_col h]; rfl

theorem select_cols {m : Table} (hn : m.names.Nodup) {l : List Str} (h : ∀ n ∈ l, n ∈ m.names) :
    (m.select l).cols = l.map (fun n => ⟨n, cellOf m n⟩) := by
  unfold Table.select
  simp only
  induction l with
  | nil => rfl
  | cons n l ih =>
    rw [List.flatMap_cons, filter_col hn (h n (by simp)), ih (fun k hk => h k (by simp [hk]))]
    rfl

/-- enough samples have the feature -/
def enough (m : Table) (thr : Rat) (n : Str) : Bool :=
  thr * m.rows.length ≤ ((m.rows.filter (fun r => (cellOf m n r).isSome)).length : Nat)

theorem kept_cols {a : Args} {m : Table} (hn : m.names.Nodup)
    (h : ∀ n ∈ a.features ++ a.splitCols.getD [] ++ a.exclusion.getD [], n ∈ m.names) :
    (kept a m).cols = ((a.features ++ a.splitCols.getD [] ++ a.exclusion.getD []).filter
      (enough m a.featThresh)).map (fun n => ⟨n, cellOf m n⟩) := by
  unfold kept Table.dropCols
  simp only
  rw [select_cols hn h, List.filter_map]
  rfl

theorem filled_names (a : Args) (m : Table) : (filled a m).names = (kept a m).names := by
  unfold filled fillFalse sampled Table.dropRows Table.names
  simp only [List.map_map]
  apply List.map_congr_left
  intro c _
  simp only [Function.comp_def, fillCol_name]
  split <;> rfl

theorem filled_rows (a : Args) (m : Table) : (filled a m).rows = (sampled a m).rows := rfl

theorem sampled_cols (a : Args) (m : Table) : (sampled a m).cols = (kept a m).cols := rfl

theorem frac_iff (thr : Rat) (k n : Nat) (hn : 0 < n) : thr * n ≤ k ↔ thr ≤ (k : Rat) / n := by
  have : (0 : Rat) < n := by exact_mod_cast hn
  rw [le_div_iff₀ this]

theorem filter_eq_one {α : Type} [DecidableEq α] {l : List α} (hn : l.Nodup) {a : α} (h : a ∈ l) :
    l.filter (fun k => k = a) = [a] := by
  induction l with
  | nil => cases h
  | cons b l ih =>
    rw [List.nodup_cons] at hn
    by_cases e : b = a
    · subst e
      simp only [List.filter_cons, decide_true, if_true]
      have : l.filter (fun k => k = b) = [] := by
        rw [List.filter_eq_nil_iff]; intro k hk; simp only [decide_eq_true_eq]; rintro rfl
        exact hn.1 hk
      rw [this]
    · simp only [List.filter_cons, e, decide_false, Bool.false_eq_true, if_false]
      apply ih hn.2
      rcases List.mem_cons.mp h with e' | e'
      · exact absurd e'.symm e
      · exact e'

end Beep.Proof.Splitter
