import Verif.Proof.Pandas
import Verif.Spec.MaccorQuantity
/-
C20: Maccor capacity columns are the per-cycle accumulation of the step quantities.
-/
namespace Beep.Props.MaccorQuantity
open Beep Beep.Pandas Beep.Maccor Beep.Spec.Maccor

theorem isEnd_iff (rows : List Row) (i : Nat) : isEnd rows i = true ↔ Completes rows i := by
  unfold isEnd Completes
  constructor
  · intro h
    split at h
    · rename_i a b ha hb
      simp only [Bool.and_eq_true, decide_eq_true_eq] at h
      exact ⟨a, b, ha, hb, h.1, h.2⟩
    · cases h
  · rintro ⟨a, b, ha, hb, h1, h2⟩
    rw [ha, hb]
    simp [h1, h2]

theorem value_running (rows : List Row) (i : Nat) (r : Row) (h : rows[i]? = some r) :
    value (hasWaveform rows) r = running rows i := by
  unfold value running hasWaveform
  rw [h]
  simp only
  by_cases hw : ∃ x ∈ rows, x.wfChgCap ≠ none
  · have : rows.any (fun r => r.wfChgCap.isSome) = true := by
      rw [List.any_eq_true]
      obtain ⟨x, hx, hn⟩ := hw
      exact ⟨x, hx, Option.isSome_iff_ne_none.mpr hn⟩
    rw [this]
    cases hr : r.wf <;> simp [hw]
  · have : rows.any (fun r => r.wfChgCap.isSome) = false := by
      rw [← Bool.not_eq_true, List.any_eq_true]
      rintro ⟨x, hx, hn⟩
      exact hw ⟨x, hx, Option.isSome_iff_ne_none.mp hn⟩
    rw [this]
    cases hr : r.wf <;> simp [hw]

theorem getElem?_addSlice (l : List Rat) (b e : Nat) (c : Rat) (i : Nat) :
    (addSlice l b e c)[i]? = (l[i]?).map (fun v => if b ≤ i ∧ i < e then v + c else v) := by
  unfold addSlice
  rw [List.getElem?_mapIdx]

theorem length_addSlice (l : List Rat) (b e : Nat) (c : Rat) : (addSlice l b e c).length = l.length := by
  simp [addSlice]

/-- hypotheses on the table: the cycle index never decreases and changes only where a step
is completed -/
structure Regular (rows : List Row) : Prop where
  mono : ∀ (i j : Nat) a b, i ≤ j → rows[i]? = some a → rows[j]? = some b → a.cycle ≤ b.cycle
  change : ∀ (i : Nat) a b, rows[i]? = some a → rows[i + 1]? = some b → a.cycle ≠ b.cycle → Completes rows i

/-- nothing is added between completed steps -/
theorem completedBefore_gap (rows : List Row) (c : Int) (b i : Nat) (hbi : b ≤ i)
    (hno : ∀ j, b ≤ j → j < i → ¬ Completes rows j) :
    completedBefore rows c i = completedBefore rows c b := by
  induction i with
  | zero => have : b = 0 := by omega
            rw [this]
  | succ i ih =>
    by_cases h : b = i + 1
    · rw [h]
    · rw [completedBefore, if_neg (fun hh => hno i (by omega) (by omega) hh.1), add_zero]
      exact ih (by omega) (fun j h1 h2 => hno j h1 (by omega))

theorem completedBefore_zero (rows : List Row) (c : Int) (b : Nat)
    (hno : ∀ (j : Nat) a, j < b → rows[j]? = some a → a.cycle ≠ c) : completedBefore rows c b = 0 := by
  induction b with
  | zero => rfl
  | succ i ih =>
    rw [completedBefore, ih (fun j a hj => hno j a (by omega)), if_neg, add_zero]
    rintro ⟨⟨a, _, ha, _⟩, hc⟩
    rw [ha] at hc
    exact hno i a (by omega) ha (by simpa using hc)

/-- no cycle change between completed steps -/
theorem cycle_const (rows : List Row) (hreg : Regular rows) (b i : Nat) (hbi : b ≤ i)
    (hno : ∀ j, b ≤ j → j < i → ¬ Completes rows j) (a r : Row) (ha : rows[b]? = some a)
    (hr : rows[i]? = some r) : a.cycle = r.cycle := by
  induction i generalizing r with
  | zero =>
    have : b = 0 := by omega
    subst this; rw [ha] at hr; cases hr; rfl
  | succ i ih =>
    by_cases h : b = i + 1
    · subst h; rw [ha] at hr; cases hr; rfl
    · have hlt : i < rows.length := by
        have := (List.getElem?_eq_some_iff.mp hr).1; omega
      have hi : rows[i]? = some rows[i] := List.getElem?_eq_getElem hlt
      rw [ih (by omega) (fun j h1 h2 => hno j h1 (by omega)) _ hi]
      by_contra hne
      exact hno i (by omega) (by omega) (hreg.change i _ r hi hr hne)

/-- `total rows i c` for a row of cycle `c` -/
def correct (rows : List Row) (i : Nat) : Option Rat :=
  (rows[i]?).map (fun r => running rows i + completedBefore rows r.cycle i)

/-- state of the loop: `b` rows done, `cs` the sum carried from the row before `b` -/
structure Inv (rows : List Row) (agg : List Rat) (cs : Rat) (b : Nat) : Prop where
  pos : 1 ≤ b
  len : agg.length = rows.length
  done : ∀ i, i < b → agg[i]? = correct rows i
  todo : ∀ i, b ≤ i → agg[i]? = (rows[i]?).map (fun _ => running rows i)
  carry : ∀ a, rows[b - 1]? = some a → cs = completedBefore rows a.cycle b

theorem addSlice_correct (rows : List Row) (hreg : Regular rows) (agg : List Rat) (cs : Rat) (b e : Nat)
    (inv : Inv rows agg cs b) (hno : ∀ j, b ≤ j → j + 1 < e → ¬ Completes rows j)
    (i : Nat) (hi : i < e) :
    (addSlice agg b e (if cycleAt rows (b - 1) ≠ cycleAt rows b then 0 else cs))[i]? = correct rows i := by
  rw [getElem?_addSlice]
  by_cases hb : b ≤ i
  · rw [inv.todo i hb]
    unfold correct
    cases hr : rows[i]? with
    | none => rfl
    | some r =>
      simp only [Option.map_some, Option.some.injEq]
      rw [if_pos ⟨hb, hi⟩]
      congr 1
      have hlt : i < rows.length := (List.getElem?_eq_some_iff.mp hr).1
      have hpos := inv.pos
      have h1 : rows[b - 1]? = some rows[b - 1] := List.getElem?_eq_getElem (by omega)
      have h2 : rows[b]? = some rows[b] := List.getElem?_eq_getElem (by omega)
      have hno' : ∀ j, b ≤ j → j < i → ¬ Completes rows j := fun j hj hji => hno j hj (by omega)
      have hcyc := cycle_const rows hreg b i hb hno' _ r h2 hr
      rw [completedBefore_gap rows r.cycle b i hb hno', ← hcyc]
      unfold cycleAt
      rw [h1, h2]
      simp only [Option.map_some, ne_eq, Option.some.injEq]
      by_cases hc : rows[b - 1].cycle = rows[b].cycle
      · rw [if_neg (not_not.mpr hc), inv.carry _ h1, hc]
      · rw [if_pos hc]
        symm
        apply completedBefore_zero
        intro j a hj ha hca
        have m1 := hreg.mono j (b - 1) a _ (by omega) ha h1
        have m2 := hreg.mono (b - 1) b _ _ (by omega) h1 h2
        apply hc; omega
  · rw [← inv.done i (by omega)]
    cases agg[i]? with
    | none => rfl
    | some v => simp [hb]

theorem loop_step (rows : List Row) (hreg : Regular rows) (agg : List Rat) (cs : Rat) (b e : Nat)
    (inv : Inv rows agg cs b) (hbe : b ≤ e + 1) (hno : ∀ j, b ≤ j → j < e → ¬ Completes rows j)
    (he : Completes rows e) :
    Inv rows (addSlice agg b (e + 1) (if cycleAt rows (b - 1) ≠ cycleAt rows b then 0 else cs))
      (((addSlice agg b (e + 1) (if cycleAt rows (b - 1) ≠ cycleAt rows b then 0 else cs))[e]?).getD 0)
      (e + 1) := by
  have hdone := addSlice_correct rows hreg agg cs b (e + 1) inv (fun j h1 h2 => hno j h1 (by omega))
  refine ⟨by omega, by rw [length_addSlice, inv.len], fun i hi => hdone i hi, ?_, ?_⟩
  · intro i hi
    rw [getElem?_addSlice, inv.todo i (by omega)]
    cases rows[i]? with
    | none => rfl
    | some r => simp only [Option.map_some]; rw [if_neg (by omega)]
  · intro a ha
    rw [Nat.add_sub_cancel] at ha
    rw [hdone e (by omega)]
    unfold correct
    rw [ha]
    simp only [Option.map_some, Option.getD_some]
    rw [completedBefore, if_pos ⟨he, by rw [ha]; rfl⟩, add_comm]

theorem sumLoop_inv (rows : List Row) (hreg : Regular rows) (es : List Nat) (agg : List Rat) (cs : Rat)
    (b : Nat) (inv : Inv rows agg cs b) (hs : es.Pairwise (· < ·))
    (hm : ∀ j, j ∈ es ↔ b ≤ j ∧ Completes rows j) :
    Inv rows (sumLoop rows es agg cs b).1 (sumLoop rows es agg cs b).2.1 (sumLoop rows es agg cs b).2.2 ∧
    (∀ j, (sumLoop rows es agg cs b).2.2 ≤ j → ¬ Completes rows j) ∧
    (∀ l, es.getLast? = some l → (sumLoop rows es agg cs b).2.2 = l + 1) := by
  induction es generalizing agg cs b with
  | nil =>
    refine ⟨inv, ?_, by simp⟩
    intro j hj hc
    exact absurd ((hm j).mpr ⟨hj, hc⟩) (by simp)
  | cons e es ih =>
    have hs' := List.pairwise_cons.mp hs
    have he := (hm e).mp (List.mem_cons_self ..)
    have hstep := loop_step rows hreg agg cs b e inv (by omega) (by
      intro j h1 h2 hc
      have hj := (hm j).mpr ⟨h1, hc⟩
      rcases List.mem_cons.mp hj with h | h
      · omega
      · have := hs'.1 j h; omega) he.2
    have hm' : ∀ j, j ∈ es ↔ e + 1 ≤ j ∧ Completes rows j := by
      intro j
      constructor
      · intro hj
        exact ⟨hs'.1 j hj, ((hm j).mp (List.mem_cons_of_mem _ hj)).2⟩
      · rintro ⟨h1, h2⟩
        have hj := (hm j).mpr ⟨by omega, h2⟩
        rcases List.mem_cons.mp hj with h | h
        · omega
        · exact h
    obtain ⟨r1, r2, r3⟩ := ih _ _ _ hstep hs'.2 hm'
    refine ⟨r1, r2, ?_⟩
    intro l hl
    cases es with
    | nil => simp at hl; subst hl; rfl
    | cons e' es' => exact r3 l (by simpa [List.getLast?_cons_cons] using hl)

theorem mem_endInds (rows : List Row) (j : Nat) : j ∈ endInds rows ↔ Completes rows j := by
  unfold endInds
  rw [List.mem_filter, isEnd_iff, List.mem_range]
  constructor
  · exact fun h => h.2
  · intro h
    have h' := h
    obtain ⟨a, b, ha, _⟩ := h'
    exact ⟨(List.getElem?_eq_some_iff.mp ha).1, h⟩

/-- the state after the loop -/
theorem loop_final (rows : List Row) (hreg : Regular rows) (l : Nat) (hl : (endInds rows).getLast? = some l) :
    let r := sumLoop rows (endInds rows) (rows.map (value (hasWaveform rows))) 0 1
    Inv rows r.1 r.2.1 r.2.2 ∧ r.2.2 = l + 1 ∧ ∀ j, l + 1 ≤ j → ¬ Completes rows j := by
  have hsort : (endInds rows).Pairwise (· < ·) := List.pairwise_lt_range.filter _
  have hval : ∀ i : Nat, (rows.map (value (hasWaveform rows)))[i]? = (rows[i]?).map (fun _ => running rows i) := by
    intro i
    rw [List.getElem?_map]
    cases h : rows[i]? with
    | none => rfl
    | some r => simp [value_running rows i r h]
  have hinit0 : ∀ i, i < 1 → (rows.map (value (hasWaveform rows)))[i]? = correct rows i := by
    intro i hi
    have : i = 0 := by omega
    subst this
    rw [hval]
    unfold correct
    cases rows[0]? with
    | none => rfl
    | some r => simp [completedBefore]
  cases hes : endInds rows with
  | nil => rw [hes] at hl; cases hl
  | cons e es =>
    rw [hes] at hl hsort
    have hm : ∀ j, j ∈ e :: es ↔ Completes rows j := by intro j; rw [← hes]; exact mem_endInds rows j
    have hs' := List.pairwise_cons.mp hsort
    have hfin : ∀ r : List Rat × Rat × Nat, (Inv rows r.1 r.2.1 r.2.2 ∧ (∀ j, r.2.2 ≤ j → ¬ Completes rows j) ∧
        r.2.2 = l + 1) → Inv rows r.1 r.2.1 r.2.2 ∧ r.2.2 = l + 1 ∧ ∀ j, l + 1 ≤ j → ¬ Completes rows j := by
      rintro r ⟨h1, h2, h3⟩
      exact ⟨h1, h3, fun j hj => h2 j (by omega)⟩
    intro r
    apply hfin r
    by_cases he : e = 0
    · -- the first row completes a step
      subst he
      have hc0 := (hm 0).mp (by simp)
      have hstep : Inv rows (addSlice (rows.map (value (hasWaveform rows))) 1 (0 + 1)
          (if cycleAt rows (1 - 1) ≠ cycleAt rows 1 then 0 else 0))
          (((addSlice (rows.map (value (hasWaveform rows))) 1 (0 + 1)
          (if cycleAt rows (1 - 1) ≠ cycleAt rows 1 then 0 else 0))[0]?).getD 0) (0 + 1) := by
        have same : ∀ c, addSlice (rows.map (value (hasWaveform rows))) 1 (0 + 1) c =
            rows.map (value (hasWaveform rows)) := by
          intro c
          apply List.ext_getElem?
          intro i
          rw [getElem?_addSlice]
          cases (rows.map (value (hasWaveform rows)))[i]? with
          | none => rfl
          | some v => simp only [Option.map_some]; rw [if_neg (by omega)]
        rw [same]
        refine ⟨by omega, by simp, hinit0, fun i _ => hval i, ?_⟩
        intro a ha
        rw [hval]
        rw [show (0 + 1 - 1 : Nat) = 0 by omega] at ha
        rw [ha]
        simp only [Option.map_some, Option.getD_some, completedBefore]
        rw [if_pos ⟨hc0, by rw [ha]; rfl⟩, zero_add]
      obtain ⟨r1, r2, r3⟩ := sumLoop_inv rows hreg es _ _ _ hstep hs'.2 (by
        intro j
        constructor
        · intro hj
          exact ⟨hs'.1 j hj, (hm j).mp (List.mem_cons_of_mem _ hj)⟩
        · rintro ⟨h1, h2⟩
          rcases List.mem_cons.mp ((hm j).mpr h2) with h | h
          · omega
          · exact h)
      refine ⟨r1, r2, ?_⟩
      cases es with
      | nil => simp at hl; subst hl; rfl
      | cons e' es' => exact r3 l (by simpa [List.getLast?_cons_cons] using hl)
    · have hinv : Inv rows (rows.map (value (hasWaveform rows))) 0 1 := by
        refine ⟨by omega, by simp, hinit0, fun i _ => hval i, ?_⟩
        intro a _
        simp only [completedBefore, zero_add]
        rw [if_neg]
        rintro ⟨h0, _⟩
        rcases List.mem_cons.mp ((hm 0).mpr h0) with h | h
        · omega
        · have := hs'.1 0 h; omega
      obtain ⟨r1, r2, r3⟩ := sumLoop_inv rows hreg (e :: es) _ _ _ hinv hsort (by
        intro j
        rw [hm j]
        constructor
        · intro h
          refine ⟨?_, h⟩
          by_contra hj
          have : j = 0 := by omega
          subst this
          rcases List.mem_cons.mp ((hm 0).mpr h) with h | h
          · omega
          · have := hs'.1 0 h; omega
        · exact fun h => h.2)
      exact ⟨r1, r2, r3 l hl⟩

/-- `e` is the last row that completes a step -/
def LastCompleted (rows : List Row) (e : Nat) : Prop :=
  Completes rows e ∧ ∀ j, Completes rows j → j ≤ e

/-- C20 (partial: the cycle index never decreases and changes only where a step is
completed; and row `i` is not in a final, unfinished step that starts a new cycle).  The
reported value in row `i` is the running value of the current step plus the final values
of the steps completed earlier in the same cycle. -/
theorem C20_accumulation_partial (rows : List Row) (hreg : Regular rows) (i : Nat) (r : Row)
    (hi : rows[i]? = some r)
    (hlast : ∀ e a b, LastCompleted rows e → rows[e]? = some a → rows[e + 1]? = some b →
      i ≤ e ∨ a.cycle = b.cycle) :
    (quantitySum rows)[i]? = some (running rows i + completedBefore rows r.cycle i) := by
  have hcor : correct rows i = some (running rows i + completedBefore rows r.cycle i) := by
    unfold correct; rw [hi]; rfl
  rw [← hcor]
  unfold quantitySum
  simp only
  cases hl : (endInds rows).getLast? with
  | none =>
    have hnil := List.getLast?_eq_none_iff.mp hl
    have hno : ∀ j, ¬ Completes rows j := by
      intro j hj
      have := (mem_endInds rows j).mpr hj
      rw [hnil] at this; cases this
    simp only
    rw [List.getElem?_map, hi, hcor, completedBefore_gap rows r.cycle 0 i (by omega) (fun j _ _ => hno j)]
    simp [completedBefore, value_running rows i r hi]
  | some l =>
    obtain ⟨inv, hb, hno⟩ := loop_final rows hreg l hl
    have hlc : Completes rows l := (mem_endInds rows l).mp (List.mem_of_getLast? hl)
    have hlast' : LastCompleted rows l := ⟨hlc, fun j hj => by
      by_contra h; exact hno j (by omega) hj⟩
    obtain ⟨a, b, ha, hb', _, _⟩ := hlc
    have hlt := (List.getElem?_eq_some_iff.mp hb').1
    simp only
    rw [if_pos (by simp; omega)]
    generalize hR : sumLoop rows (endInds rows) (rows.map (value (hasWaveform rows))) 0 1 = R at inv hb
    have hilt : i < rows.length := (List.getElem?_eq_some_iff.mp hi).1
    rcases hlast l a b hlast' ha hb' with h | h
    · rw [getElem?_addSlice, inv.done i (by omega), hcor]
      simp only [Option.map_some]
      rw [if_neg (by omega)]
    · have := addSlice_correct rows hreg R.1 R.2.1 R.2.2 rows.length inv
        (fun j h1 _ => hno j (by omega)) i hilt
      have hceq : ¬ (cycleAt rows (R.2.2 - 1) ≠ cycleAt rows R.2.2) := by
        rw [hb]
        unfold cycleAt
        rw [Nat.add_sub_cancel, ha, hb']
        simp [h]
      rw [if_neg hceq] at this
      rw [List.length_map]
      exact this

/-- one row of a test table -/
def mk (quantity : Rat) (inState endStatus : Bool) (step cycle : Int) : Row :=
  { quantity, inState, wfChgCap := none, wf := none, endStatus, step, cycle }

/-- two charge steps in cycle 1, a discharge and the beginning of the next charge in
cycle 2 -/
def exRows : List Row :=
  [mk 1 true false 1 1, mk 2 true true 1 1, mk 1 true false 2 1, mk 3 true true 2 1,
   mk 4 false true 3 2, mk 1 true false 4 2]

example : quantitySum exRows = [1, 2, 3, 5, 0, 1] := by decide +kernel

theorem exRows_regular : Regular exRows := by
  constructor
  · have key : ∀ j < 6, ∀ i ≤ j, ∀ a ∈ exRows[i]?, ∀ b ∈ exRows[j]?, a.cycle ≤ b.cycle := by decide
    intro i j a b hij ha hb
    have hj : j < 6 := (List.getElem?_eq_some_iff.mp hb).1
    exact key j hj i hij a ha b hb
  · have key : ∀ i < 6, ∀ a ∈ exRows[i]?, ∀ b ∈ exRows[i + 1]?, a.cycle ≠ b.cycle → Completes exRows i := by
      decide
    intro i a b ha hb
    have hi : i < 6 := (List.getElem?_eq_some_iff.mp ha).1
    exact key i hi a ha b hb

/-- the hypotheses of `C20_accumulation_partial` hold for every row of `exRows` -/
example (i : Nat) (r : Row) (hi : exRows[i]? = some r) :
    (quantitySum exRows)[i]? = some (running exRows i + completedBefore exRows r.cycle i) := by
  apply C20_accumulation_partial exRows exRows_regular i r hi
  intro e a b hl ha hb
  right
  have he : e < 6 := (List.getElem?_eq_some_iff.mp ha).1
  have h4 : 4 ≤ e := hl.2 4 (by decide)
  have key : ∀ e < 6, 4 ≤ e → ∀ a ∈ exRows[e]?, ∀ b ∈ exRows[e + 1]?, a.cycle = b.cycle := by decide
  exact key e he h4 a ha b hb

/-- C20 fails for a file that ends in the first step of a new cycle: the unfinished step of
cycle 2 is reported with the capacity of cycle 1 added. -/
theorem C20_dangling_violated :
    quantitySum [mk 1 true false 1 1, mk 2 true true 1 1, mk 1 true false 2 2, mk 2 true false 2 2] =
      [1, 2, 3, 4] ∧
    completedBefore [mk 1 true false 1 1, mk 2 true true 1 1, mk 1 true false 2 2, mk 2 true false 2 2] 2 3 = 0 := by
  decide +kernel

/-- C20 fails when the cycle index changes inside a step: the accumulated value is not
reset. -/
theorem C20_cycle_inside_step_violated :
    quantitySum [mk 2 true true 1 1, mk 1 true false 2 1, mk 2 true true 2 2, mk 1 true false 3 2] =
      [2, 3, 4, 5] := by
  decide +kernel

end Beep.Props.MaccorQuantity
