import Verif.Props.CyclesInterp
import Verif.Model.DiagInterp
import Verif.Spec.DiagInterp
import Verif.Proof.Pandas
/-
Lemmas about the runs of a diagnostic cycle.
-/
namespace Beep.DiagInterp
open Beep.Pandas Beep.Steps Beep.Interp Beep.Spec.DiagInterp Beep.Spec.CyclesInterp

theorem neN_false {a b : Row} : neN a.step b.step = false ↔ SameStep b a := by
  unfold neN SameStep
  split
  · rename_i x y h1 h2
    rw [h1, h2]
    constructor
    · intro h
      simp only [ne_eq, decide_not, Bool.not_eq_false', decide_eq_true_eq] at h
      exact ⟨x, by rw [h], rfl⟩
    · rintro ⟨s, e1, e2⟩
      cases e1; cases e2
      simp
  · rename_i h
    constructor
    · intro h; cases h
    · rintro ⟨s, e1, e2⟩
      exact (h s s e2 e1).elim

/-- the runs, by recursion -/
def runs : List Row → List (List Row)
  | [] => []
  | r :: rs => match runs rs with
    | [] => [[r]]
    | b :: bs => match b.head? with
      | none => [r] :: bs
      | some y => if neN y.step r.step then [r] :: b :: bs else (r :: b) :: bs

theorem sameStep_trans {a b c : Row} (h1 : SameStep a b) (h2 : SameStep b c) : SameStep a c := by
  obtain ⟨s, e1, e2⟩ := h1
  obtain ⟨t, e3, e4⟩ := h2
  rw [e2] at e3; cases e3
  exact ⟨s, e1, e4⟩

theorem runs_unique {rows : List Row} {bs : List (List Row)} (h : IsRuns rows bs) : bs = runs rows := by
  induction rows generalizing bs with
  | nil =>
    match bs, h with
    | [], _ => rfl
    | b :: bs, h =>
      have h1 := h.join
      have h2 := h.nonempty b (by simp)
      simp only [List.flatten_cons, List.append_eq_nil_iff] at h1
      exact absurd h1.1 h2
  | cons r rs ih =>
    match bs, h with
    | [], h => have := h.join; simp at this
    | [] :: bs, h => exact absurd rfl (h.nonempty [] (by simp))
    | [r'] :: bs, h =>
      have hj := h.join
      simp only [List.flatten_cons, List.cons_append, List.nil_append, List.cons.injEq] at hj
      obtain ⟨rfl, hj⟩ := hj
      have h' : IsRuns rs bs := ⟨hj, fun b hb => h.nonempty b (List.mem_cons_of_mem _ hb),
        fun b hb => h.same b (List.mem_cons_of_mem _ hb),
        fun i a b ha hb => h.maximal (i + 1) a b (by simpa using ha) (by simpa using hb)⟩
      have e := ih h'
      unfold runs
      rw [← e]
      match bs, h with
      | [], _ => rfl
      | [] :: bs, h => exact absurd rfl (h.nonempty [] (by simp))
      | (y :: b) :: bs, h =>
        have := h.maximal 0 [r'] (y :: b) rfl rfl r' y rfl rfl
        have hn : neN y.step r'.step = true := by
          rw [← Bool.not_eq_false, neN_false]; exact this
        simp [hn]
    | (r' :: y :: b) :: bs, h =>
      have hj := h.join
      simp only [List.flatten_cons, List.cons_append, List.cons.injEq] at hj
      obtain ⟨rfl, hj⟩ := hj
      have hp := List.pairwise_cons.mp (h.same (r' :: y :: b) (by simp))
      have h' : IsRuns rs ((y :: b) :: bs) := by
        refine ⟨by simpa using hj, ?_, ?_, ?_⟩
        · intro c hc
          rcases List.mem_cons.mp hc with rfl | hc
          · simp
          · exact h.nonempty c (List.mem_cons_of_mem _ hc)
        · intro c hc
          rcases List.mem_cons.mp hc with rfl | hc
          · exact hp.2
          · exact h.same c (List.mem_cons_of_mem _ hc)
        · intro i a c ha hc x z hx hz
          match i with
          | 0 =>
            simp only [List.getElem?_cons_zero, Option.some.injEq] at ha
            subst ha
            refine h.maximal 0 _ c rfl (by simpa using hc) x z ?_ hz
            rw [List.getLast?_cons_cons]; exact hx
          | i + 1 => exact h.maximal (i + 1) a c (by simpa using ha) (by simpa using hc) x z hx hz
      have e := ih h'
      unfold runs
      rw [← e]
      have hn : neN y.step r'.step = false := neN_false.mpr (hp.1 y (by simp))
      simp [hn]

theorem runs_isRuns (rows : List Row) : IsRuns rows (runs rows) := by
  induction rows with
  | nil => exact ⟨rfl, by simp [runs], by simp [runs], by simp [runs]⟩
  | cons r rs ih =>
    unfold runs
    split
    · rename_i e
      rw [e] at ih
      have := ih.join
      simp only [List.flatten_nil] at this
      subst this
      refine ⟨rfl, by simp, by simp, ?_⟩
      intro i a b _ hb
      simp at hb
    · rename_i b bs e
      rw [e] at ih
      split
      · rename_i hb
        have := ih.nonempty b (by simp)
        rw [List.head?_eq_none_iff] at hb
        exact absurd hb this
      · rename_i y hy
        obtain ⟨b', rfl⟩ : ∃ b', b = y :: b' := by
          cases b with
          | nil => cases hy
          | cons z b' => cases hy; exact ⟨b', rfl⟩
        have hpb := List.pairwise_cons.mp (ih.same (y :: b') (by simp))
        split
        · rename_i hn
          refine ⟨by rw [← ih.join]; simp, ?_, ?_, ?_⟩
          · intro c hc
            rcases List.mem_cons.mp hc with rfl | hc
            · simp
            · exact ih.nonempty c hc
          · intro c hc
            rcases List.mem_cons.mp hc with rfl | hc
            · simp
            · exact ih.same c hc
          · intro i a c ha hc x z hx hz
            match i with
            | 0 =>
              simp only [List.getElem?_cons_zero, Option.some.injEq, List.getElem?_cons_succ] at ha hc
              subst ha; subst hc
              cases hx; cases hz
              intro hs
              simp only [List.getLast_singleton] at hs
              rw [neN_false.mpr hs] at hn
              cases hn
            | i + 1 => exact ih.maximal i a c (by simpa using ha) (by simpa using hc) x z hx hz
        · rename_i hn
          rw [Bool.not_eq_true, neN_false] at hn
          refine ⟨by rw [← ih.join]; simp, ?_, ?_, ?_⟩
          · intro c hc
            rcases List.mem_cons.mp hc with rfl | hc
            · simp
            · exact ih.nonempty c (List.mem_cons_of_mem _ hc)
          · intro c hc
            rcases List.mem_cons.mp hc with rfl | hc
            · refine List.pairwise_cons.mpr ⟨?_, ih.same _ (by simp)⟩
              intro z hz
              rcases List.mem_cons.mp hz with rfl | hz
              · exact hn
              · exact sameStep_trans hn (hpb.1 z hz)
            · exact ih.same c (List.mem_cons_of_mem _ hc)
          · intro i a c ha hc x z hx hz
            match i with
            | 0 =>
              simp only [List.getElem?_cons_zero, Option.some.injEq] at ha
              subst ha
              rw [List.getLast?_cons_cons] at hx
              exact ih.maximal 0 _ c rfl (by simpa using hc) x z hx hz
            | i + 1 => exact ih.maximal (i + 1) a c (by simpa using ha) (by simpa using hc) x z hx hz

/-- number the blocks from `k` -/
def tagBlocks (k : Nat) : List (List Row) → List (Row × Nat)
  | [] => []
  | b :: bs => b.map (fun r => (r, k)) ++ tagBlocks (k + 1) bs

theorem counters_eq (prev : Option Int) (k : Nat) (rows : List Row) :
    counters prev k rows = match rows.head? with
      | none => []
      | some y => tagBlocks (if neN y.step prev then k + 1 else k) (runs rows) := by
  induction rows generalizing prev k with
  | nil => rfl
  | cons r rs ih =>
    simp only [counters, List.head?_cons]
    generalize (if neN r.step prev = true then k + 1 else k) = k'
    rw [ih]
    match rs with
    | [] => rfl
    | y :: rs =>
      simp only [List.head?_cons]
      have hr := runs_isRuns (y :: rs)
      have hu : ∀ l : List Row, runs (r :: l) = match runs l with
          | [] => [[r]]
          | b :: bs => match b.head? with
            | none => [r] :: bs
            | some y => if neN y.step r.step then [r] :: b :: bs else (r :: b) :: bs := fun l => rfl
      rw [hu]
      match hb : runs (y :: rs), hr with
      | [], hr => have := hr.join; simp at this
      | [] :: bs, hr => exact absurd rfl (hr.nonempty [] (by simp))
      | (z :: b) :: bs, hr =>
        have hj := hr.join
        simp only [List.flatten_cons, List.cons_append, List.cons.injEq] at hj
        obtain ⟨rfl, _⟩ := hj
        simp only [List.head?_cons]
        by_cases hn : neN z.step r.step = true
        · simp only [hn, if_true]; rfl
        · simp only [hn, Bool.false_eq_true, if_false]; rfl

theorem neN_none (s : Option Int) : neN s none = true := by cases s <;> rfl

theorem tagged_eq (raw : List Row) (c : Int) :
    tagged raw c = tagBlocks 1 (runs (cycleRows raw c)) := by
  unfold tagged cycleRows
  rw [counters_eq]
  split
  · rename_i h
    rw [List.head?_eq_none_iff] at h
    rw [h]; rfl
  · rw [neN_none]; rfl

theorem mem_tagBlocks {k : Nat} {bs : List (List Row)} {r : Row} {j : Nat} :
    (r, j) ∈ tagBlocks k bs ↔ k ≤ j ∧ ∃ b, bs[j - k]? = some b ∧ r ∈ b := by
  induction bs generalizing k with
  | nil => simp [tagBlocks]
  | cons b bs ih =>
    simp only [tagBlocks, List.mem_append, List.mem_map, Prod.mk.injEq, ih]
    constructor
    · rintro (⟨r', h1, rfl, rfl⟩ | ⟨h1, b', h2, h3⟩)
      · exact ⟨le_refl _, b, by simp, h1⟩
      · refine ⟨by omega, b', ?_, h3⟩
        have : j - k = (j - (k + 1)) + 1 := by omega
        rw [this, List.getElem?_cons_succ]; exact h2
    · rintro ⟨h1, b', h2, h3⟩
      by_cases e : j = k
      · subst e
        simp only [Nat.sub_self, List.getElem?_cons_zero, Option.some.injEq] at h2
        subst h2
        exact Or.inl ⟨r, h3, rfl, rfl⟩
      · refine Or.inr ⟨by omega, b', ?_, h3⟩
        have : j - k = (j - (k + 1)) + 1 := by omega
        rw [this, List.getElem?_cons_succ] at h2; exact h2

theorem filter_tagBlocks (k : Nat) (bs : List (List Row)) (s : Int) (j : Nat) :
    ((tagBlocks k bs).filter (fun p => decide (p.1.step = some s) && decide (p.2 = j))).map Prod.fst =
      if k ≤ j then (bs.getD (j - k) []).filter (fun r => decide (r.step = some s)) else [] := by
  induction bs generalizing k with
  | nil => simp [tagBlocks]
  | cons b bs ih =>
    simp only [tagBlocks, List.filter_append, List.map_append, ih]
    have hb : ((b.map (fun r => (r, k))).filter (fun p => decide (p.1.step = some s) && decide (p.2 = j))).map Prod.fst =
        if k = j then b.filter (fun r => decide (r.step = some s)) else [] := by
      rw [List.filter_map, List.map_map]
      by_cases e : k = j
      · subst e
        simp [Function.comp_def]
      · simp [Function.comp_def, e]
    rw [hb]
    by_cases e : k = j
    · subst e
      simp
    · by_cases h : k ≤ j
      · have e2 : j - k = (j - (k + 1)) + 1 := by omega
        rw [if_neg e, if_pos h, if_pos (by omega), e2]
        simp
      · rw [if_neg e, if_neg h, if_neg (by omega)]
        rfl

/-- the rows of a group are a whole run -/
theorem groupOf_run {raw : List Row} {c s : Int} {j : Nat} {bs : List (List Row)}
    (h : IsRuns (cycleRows raw c) bs) (hk : (s, j) ∈ keysOf (tagged raw c)) :
    1 ≤ j ∧ bs[j - 1]? = some (groupOf (tagged raw c) (s, j)) ∧
      ∀ r ∈ groupOf (tagged raw c) (s, j), r.step = some s := by
  have e := runs_unique h
  unfold keysOf at hk
  rw [mem_sortBy, mem_unique, List.mem_filterMap] at hk
  obtain ⟨⟨r, j'⟩, hm, hs⟩ := hk
  rcases hr : r.step with _ | s'
  · rw [hr] at hs; cases hs
  · rw [hr] at hs
    simp only [Option.map_some, Option.some.injEq, Prod.mk.injEq] at hs
    obtain ⟨rfl, rfl⟩ := hs
    rw [tagged_eq, ← e] at hm ⊢
    obtain ⟨h1, b, hb, hrb⟩ := mem_tagBlocks.mp hm
    have hall : ∀ q ∈ b, q.step = some s' := by
      intro q hq
      by_cases hqr : q = r
      · rw [hqr]; exact hr
      · have hp := h.same b (List.mem_of_getElem? hb)
        have : SameStep r q ∨ SameStep q r :=
          List.Pairwise.forall_of_forall_of_flip (R := fun a b => a ≠ b → (SameStep a b ∨ SameStep b a))
            (fun x _ hx => absurd rfl hx) (hp.imp (fun h _ => Or.inl h)) (hp.imp (fun h _ => Or.inr h)) hrb hq
            (Ne.symm hqr)
        rcases this with ⟨t, e1, e2⟩ | ⟨t, e1, e2⟩
        · rw [hr] at e1; cases e1; exact e2
        · rw [hr] at e2; cases e2; exact e1
    have hg : groupOf (tagBlocks 1 bs) (s', j') = b := by
      unfold groupOf
      rw [filter_tagBlocks, if_pos h1]
      have : bs.getD (j' - 1) [] = b := by rw [List.getD_eq_getElem?_getD, hb]; rfl
      rw [this, List.filter_eq_self]
      intro q hq
      simp [hall q hq]
    rw [hg]
    exact ⟨h1, hb, hall⟩

/-- every run with a step index is a group -/
theorem run_key {raw : List Row} {c s : Int} {j : Nat} {bs : List (List Row)} {b : List Row} {r : Row}
    (h : IsRuns (cycleRows raw c) bs) (h1 : 1 ≤ j) (hb : bs[j - 1]? = some b) (hr : r ∈ b)
    (hs : r.step = some s) : (s, j) ∈ keysOf (tagged raw c) := by
  unfold keysOf
  rw [mem_sortBy, mem_unique, List.mem_filterMap]
  refine ⟨(r, j), ?_, by simp [hs]⟩
  rw [tagged_eq, ← runs_unique h]
  exact mem_tagBlocks.mpr ⟨h1, b, hb, hr⟩

/-! ### one group -/

theorem length_diff (l : List (Option Rat)) : (diff l).length = l.length := by
  have aux : ∀ (l : List (Option Rat)) p, (diffFrom p l).length = l.length := by
    intro l
    induction l with
    | nil => intro p; rfl
    | cons a l ih => intro p; simp [diffFrom, ih]
  cases l with
  | nil => rfl
  | cons a l => simp [diff, aux]

theorem diff_zero (l : List (Option Rat)) (h : 0 < l.length) : (diff l)[0]? = some none := by
  cases l with
  | nil => simp at h
  | cons a l => rfl

theorem diff_succ (l : List (Option Rat)) (i : Nat) (a b : Option Rat) (ha : l[i]? = some a)
    (hb : l[i + 1]? = some b) : (diff l)[i + 1]? = some (subN b a) := by
  have aux : ∀ (l : List (Option Rat)) (p : Option Rat) (i : Nat) (a b : Option Rat),
      (p :: l)[i]? = some a → (p :: l)[i + 1]? = some b → (diffFrom p l)[i]? = some (subN b a) := by
    intro l
    induction l with
    | nil => intro p i a b _ hb; simp at hb
    | cons c l ih =>
      intro p i a b ha hb
      cases i with
      | zero =>
        simp only [List.getElem?_cons_zero, Option.some.injEq, Nat.zero_add, List.getElem?_cons_succ] at ha hb
        subst ha; subst hb; rfl
      | succ i =>
        simp only [diffFrom, List.getElem?_cons_succ]
        exact ih c i a b (by simpa using ha) (by simpa using hb)
  cases l with
  | nil => simp at ha
  | cons c l =>
    simp only [diff, List.getElem?_cons_succ]
    exact aux l c i a b ha hb

theorem slope_spec (q q' v v' : Option Rat) : Slope q q' v v' (divN (subN q q') (subN v v')) := by
  constructor
  · rintro a a' b b' rfl rfl rfl rfl hb
    have : b - b' ≠ 0 := sub_ne_zero.mpr hb
    simp [subN, divN, this]
  · intro h
    rcases h with rfl | rfl | rfl | rfl | rfl
    · simp [subN, divN]
    · cases q <;> simp [subN, divN]
    · cases q <;> cases q' <;> simp [subN, divN]
    · cases q <;> cases q' <;> cases v <;> simp [subN, divN]
    · cases q <;> cases q' <;> cases v <;> simp [subN, divN]

theorem slopes_zero (j : Nat) (vs : List (List (Option Rat))) (h : 0 < vs.length) :
    (slopes j vs)[0]? = some none := by
  unfold slopes
  rw [List.getElem?_zipWith, diff_zero _ (by simpa [column] using h), diff_zero _ (by simpa [column] using h)]
  rfl

theorem slopes_succ (j : Nat) (vs : List (List (Option Rat))) (i : Nat) (a b : List (Option Rat))
    (ha : vs[i]? = some a) (hb : vs[i + 1]? = some b) :
    (slopes j vs)[i + 1]? =
      some (divN (subN (b.getD j none) (a.getD j none)) (subN (b.getD 1 none) (a.getD 1 none))) := by
  unfold slopes
  have h : ∀ k, (diff (column k vs))[i + 1]? = some (subN (b.getD k none) (a.getD k none)) := by
    intro k
    apply diff_succ
    · simp [column, ha]
    · simp [column, hb]
  rw [List.getElem?_zipWith, h, h]

theorem length_slopes (j : Nat) (vs : List (List (Option Rat))) : (slopes j vs).length = vs.length := by
  simp [slopes, length_diff, column]

/-- the grid in either direction -/
theorem grid_at (t : Table) (m : Nat) (a b : Rat) (n : Nat) (hab : a ≠ b) (hn : 2 ≤ n) :
    ∃ out, interpolateDf t m (some (a, b)) n = .ok out ∧ out.length = n ∧
      ∀ i < n, ∃ vals, out[i]? = some (gridPoint a b n i, vals) ∧ vals.length = m := by
  unfold gridPoint
  rcases lt_or_gt_of_ne hab with h | h
  · rw [min_eq_left h.le, max_eq_right h.le]
    exact Props.Interp.C11_grid t m a b n h hn
  · rw [min_eq_right h.le, max_eq_left h.le]
    exact Props.Interp.C11_grid_descending t m a b n h hn

theorem grid_short (t : Table) (m : Nat) (a b : Rat) (n : Nat) (h : a = b ∨ n < 2) :
    ∃ out, interpolateDf t m (some (a, b)) n = .ok out ∧ out.length < 2 := by
  refine ⟨_, rfl, ?_⟩
  rw [List.length_map]
  match n, h with
  | 0, _ => simp [linspace, sortBy, unique]
  | 1, _ =>
    refine lt_of_le_of_lt (length_unique_le _) ?_
    rw [length_sortBy, length_linspace]; omega
  | n + 2, h =>
    have hab : a = b := by rcases h with h | h <;> [exact h; omega]
    subst hab
    rw [sort_const a (n + 2) (by omega)]
    simp

theorem axisColumn_time : AxisColumn "test_time" Row.time := .time
theorem axisColumn_voltage : AxisColumn "voltage" Row.voltage := .voltage

/-- the plan of a run -/
theorem stepAxis_plan {a : Args} {hppc : Bool} {rows : List Row} {axis : String} {lo hi : Rat} {n : Nat}
    (h : stepAxis a hppc rows = .ok (axis, (lo, hi), n)) :
    ∃ ax, AxisColumn axis ax ∧
      Plan a.timeRes a.voltRes a.vDelta a.fallback (hppc = true) rows axis ax (axisIdx axis) lo hi n := by
  unfold stepAxis at h
  split at h
  · rename_i vlo vhi h1 h2
    have ext := Props.CyclesInterp.extent_of h1 h2
    split at h
    · rename_i hc
      simp only [Bool.and_eq_true, decide_eq_true_eq] at hc
      cases h
      exact ⟨_, .voltage, .hppc ext hc.2 hc.1⟩
    · rename_i hc
      simp only [Bool.and_eq_true, decide_eq_true_eq] at hc
      split at h
      · rename_i hd
        split at h
        · rename_i t0 t1 h3 h4
          cases h
          exact ⟨_, .time, .time ext hd (Props.CyclesInterp.extent_of h3 h4)⟩
        · cases h
      · rename_i hd
        have hd : a.vDelta ≤ vhi - vlo := not_lt.mp hd
        have hh : ¬ hppc = true := fun e => hc ⟨e, hd⟩
        cases hf : a.fallback with
        | none =>
          rw [hf] at h
          cases h
          exact ⟨_, .voltage, by rw [← hf]; exact .own ext hd hh hf⟩
        | some v =>
          obtain ⟨x, y⟩ := v
          rw [hf] at h
          cases h
          exact ⟨_, .voltage, by rw [← hf]; exact .given ext hd hh hf⟩
  · cases h

/-- the columns of a plan are those of its axis -/
theorem plan_axis {t v : Nat} {d : Rat} {f : Option (Rat × Rat)} {h : Prop} {rows : List Row} {axis : String}
    {ax : Row → Option Rat} {j : Nat} {lo hi : Rat} {n : Nat} (p : Plan t v d f h rows axis ax j lo hi n) :
    AxisColumn axis ax ∧ j = axisIdx axis := by
  cases p
  · exact ⟨.time, rfl⟩
  · exact ⟨.voltage, rfl⟩
  · exact ⟨.voltage, rfl⟩
  · exact ⟨.voltage, rfl⟩

theorem extent_unique {col : Row → Option Rat} {rows : List Row} {a b c d : Rat}
    (h1 : Extent col rows a b) (h2 : Extent col rows c d) : a = c ∧ b = d := by
  obtain ⟨r1, m1, e1⟩ := h1.low
  obtain ⟨r2, m2, e2⟩ := h1.high
  obtain ⟨r3, m3, e3⟩ := h2.low
  obtain ⟨r4, m4, e4⟩ := h2.high
  exact ⟨le_antisymm (h1.within r3 m3 c e3).1 (h2.within r1 m1 a e1).1,
    le_antisymm (h2.within r2 m2 b e2).2 (h1.within r4 m4 d e4).2⟩

theorem extent_minmax {col : Row → Option Rat} {rows : List Row} {lo hi : Rat} (h : Extent col rows lo hi) :
    minN (rows.map col) = some lo ∧ maxN (rows.map col) = some hi := by
  obtain ⟨r, hr, e⟩ := h.low
  have hin : some lo ∈ rows.map col := List.mem_map.mpr ⟨r, hr, e⟩
  have h1 : minN (rows.map col) ≠ none := fun e => (minN_none _).mp e ⟨lo, hin⟩
  have h2 : maxN (rows.map col) ≠ none := fun e => (maxN_none _).mp e ⟨lo, hin⟩
  obtain ⟨a, ha⟩ := Option.ne_none_iff_exists'.mp h1
  obtain ⟨b, hb⟩ := Option.ne_none_iff_exists'.mp h2
  obtain ⟨rfl, rfl⟩ := extent_unique (Props.CyclesInterp.extent_of ha hb) h
  exact ⟨ha, hb⟩

/-- a run has one plan, the one the code follows -/
theorem stepAxis_of_plan {a : Args} {hppc : Bool} {rows : List Row} {axis : String} {ax : Row → Option Rat}
    {j : Nat} {lo hi : Rat} {n : Nat}
    (p : Plan a.timeRes a.voltRes a.vDelta a.fallback (hppc = true) rows axis ax j lo hi n) :
    stepAxis a hppc rows = .ok (axis, (lo, hi), n) := by
  cases p with
  | time e h x =>
    obtain ⟨h1, h2⟩ := extent_minmax e
    obtain ⟨h3, h4⟩ := extent_minmax x
    have hh : ¬ (_ : Rat) ≥ a.vDelta := not_le.mpr h
    simp [stepAxis, h1, h2, h3, h4, hh, h]
  | hppc e h x =>
    obtain ⟨h1, h2⟩ := extent_minmax e
    simp [stepAxis, h1, h2, h, x]
  | own e h x f =>
    obtain ⟨h1, h2⟩ := extent_minmax e
    have hh := not_lt.mpr h
    simp [stepAxis, h1, h2, x, f, hh]
  | given e h x f =>
    obtain ⟨h1, h2⟩ := extent_minmax e
    have hh := not_lt.mpr h
    simp [stepAxis, h1, h2, x, f, hh]

/-- what the rows of one group are -/
structure GroupOut (run : List Row) (axis : String) (ax : Row → Option Rat) (lo hi : Rat) (n : Nat)
    (out : List DRow) : Prop where
  len : out.length = n
  point : ∀ (i : Nat) (o : DRow), out[i]? = some o → o.vals[axisIdx axis]? = some (some (gridPoint lo hi n i))
  wide : ∀ (i : Nat) (o : DRow), out[i]? = some o → o.vals.length = Interp.width run
  value : ∀ (i : Nat) (o : DRow), out[i]? = some o → DistinctOn ax run → ∀ j w, j ≠ axisIdx axis → o.vals[j]? = some w →
    Interpolated ax run j (gridPoint lo hi n i) w
  first : ∀ (o : DRow), out[0]? = some o → o.dchgSlope = none ∧ o.chgSlope = none
  next : ∀ (i : Nat) (o o' : DRow), out[i]? = some o → out[i + 1]? = some o' →
    Slope (o'.vals.getD 3 none) (o.vals.getD 3 none) (o'.vals.getD 1 none) (o.vals.getD 1 none) o'.dchgSlope ∧
    Slope (o'.vals.getD 2 none) (o.vals.getD 2 none) (o'.vals.getD 1 none) (o.vals.getD 1 none) o'.chgSlope

theorem groupRows_eq {a : Args} {hppc : Bool} {c : Int} {ct : String} {st : Nat} {key : Int × Nat}
    {run : List Row} {axis : String} {ax : Row → Option Rat} {lo hi : Rat} {n : Nat}
    (hs : stepAxis a hppc run = .ok (axis, (lo, hi), n)) (hax : AxisColumn axis ax) :
    (hasGap axis run = true → groupRows a hppc c ct st key run = .error .notImplemented) ∧
    (hasGap axis run = false → (lo = hi ∨ n < 2) → groupRows a hppc c ct st key run = .ok []) ∧
    (hasGap axis run = false → lo ≠ hi → 2 ≤ n → ∃ out, groupRows a hppc c ct st key run = .ok out ∧
      GroupOut run axis ax lo hi n out ∧
      ∀ o ∈ out, o.cycle = c ∧ o.cycleType = ct ∧ o.step = key.1 ∧ o.counter = key.2 ∧ o.stepType = st) := by
  refine ⟨?_, ?_, ?_⟩
  · intro hg
    unfold groupRows
    simp [hs, hg]
  · intro hg h
    obtain ⟨pts, hp, hl⟩ := grid_short (tableOf axis run) (Interp.width run) lo hi n h
    unfold groupRows
    simp [hs, hg, hp, hl]
  · intro hg hne hn
    obtain ⟨pts, hp, hl, hpt⟩ := grid_at (tableOf axis run) (Interp.width run) lo hi n hne hn
    unfold groupRows
    simp only [hs, hg, hp, Bool.false_eq_true, if_false, List.length_map, hl]
    rw [if_neg (by omega)]
    refine ⟨_, rfl, ?_, ?_⟩
    · have hv : ∀ i, i < n → ∃ vals, pts[i]? = some (gridPoint lo hi n i, vals) ∧ vals.length = Interp.width run ∧
          (pts.map (fun q => q.2.set (axisIdx axis) (some q.1)))[i]? =
            some (vals.set (axisIdx axis) (some (gridPoint lo hi n i))) := by
        intro i hin
        obtain ⟨vals, h1, h2⟩ := hpt i hin
        exact ⟨vals, h1, h2, by rw [List.getElem?_map, h1]; rfl⟩
      generalize hvs : pts.map (fun q => q.2.set (axisIdx axis) (some q.1)) = vs at hv ⊢
      have hlen : vs.length = n := by rw [← hvs, List.length_map, hl]
      have hget : ∀ i o, ((vs.zip ((slopes 3 vs).zip (slopes 2 vs))).map (label c ct key.1 key.2 st))[i]? = some o →
          i < n ∧ vs[i]? = some o.vals ∧ (slopes 3 vs)[i]? = some o.dchgSlope ∧ (slopes 2 vs)[i]? = some o.chgSlope := by
        intro i o h
        rw [List.getElem?_map, Option.map_eq_some_iff] at h
        obtain ⟨⟨v, s3, s2⟩, h1, rfl⟩ := h
        rw [List.getElem?_zip_eq_some, List.getElem?_zip_eq_some] at h1
        refine ⟨?_, h1.1, h1.2.1, h1.2.2⟩
        have := (List.getElem?_eq_some_iff.mp h1.1).1
        omega
      constructor
      · simp [length_slopes, hlen]
      · intro i o h
        obtain ⟨h1, h2, _⟩ := hget i o h
        obtain ⟨vals, h3, h4, h5⟩ := hv i h1
        rw [h2] at h5
        rw [Option.some.inj h5, List.getElem?_set_self (by rw [h4]; exact Props.CyclesInterp.axisIdx_lt axis run)]
      · intro i o h
        obtain ⟨h1, h2, _⟩ := hget i o h
        obtain ⟨vals, h3, h4, h5⟩ := hv i h1
        rw [h2] at h5
        rw [Option.some.inj h5, List.length_set, h4]
      · intro i o h hd j w hj hw
        obtain ⟨h1, h2, _⟩ := hget i o h
        obtain ⟨vals, h3, h4, h5⟩ := hv i h1
        rw [h2] at h5
        rw [Option.some.inj h5, List.getElem?_set_ne (Ne.symm hj)] at hw
        refine Props.CyclesInterp.interpolated_of hax run hd hp _ vals (List.mem_of_getElem? h3) j ?_ w hw
        rw [← h4]
        exact (List.getElem?_eq_some_iff.mp hw).1
      · intro o h
        obtain ⟨h1, _, h3, h4⟩ := hget 0 o h
        rw [slopes_zero _ _ (by omega)] at h3 h4
        exact ⟨(Option.some.inj h3).symm, (Option.some.inj h4).symm⟩
      · intro i o o' h h'
        obtain ⟨_, h2, _, _⟩ := hget i o h
        obtain ⟨_, h2', h3, h4⟩ := hget (i + 1) o' h'
        rw [slopes_succ _ _ i _ _ h2 h2'] at h3 h4
        rw [← Option.some.inj h3, ← Option.some.inj h4]
        exact ⟨slope_spec _ _ _ _, slope_spec _ _ _ _⟩
    · intro o ho
      rw [List.mem_map] at ho
      obtain ⟨p, _, rfl⟩ := ho
      exact ⟨rfl, rfl, rfl, rfl, rfl⟩

end Beep.DiagInterp
