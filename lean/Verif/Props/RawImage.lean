import Verif.Proof.Base
import Verif.Proof.Hppc
import Verif.Props.Hppc
import Verif.Props.Ingest
import Verif.Spec.RawImage
/-
C105: images of interpolated data.  C106: parameters of the charging protocol.  C86 for these featurizers.
-/
namespace Beep.Props.RawImage
open Beep Pandas Beep.RawImage Beep.Spec.RawImage
open Beep.Spec.Hppc (IsNth)
open Beep.Proof.Hppc (nth_iff nth_unique nth_mem unique_length)
open Beep.Props.Hppc (mapE_map)

/-- if any element raises, so does the whole -/
theorem mapE_raises {α β : Type} (f : α → Except Err β) (l : List α) (a : α) (ha : a ∈ l) (h : ∃ e, f a = .error e) :
    ∃ e, Summary.mapE f l = .error e := by
  cases hm : Summary.mapE f l with
  | error e => exact ⟨e, rfl⟩
  | ok r =>
    obtain ⟨k, hk⟩ := List.getElem?_of_mem ha
    obtain ⟨b, hb, _⟩ := (Summary.mapE_ok hm).2 k a hk
    obtain ⟨e, h⟩ := h
    rw [h] at hb
    cases hb

/-! ### C105 -/

theorem cycle_sub {df : List Row} {type : String} {pos : Nat} {cycle : List Row} (h : IsCycle df type pos cycle) :
    ∃ c, (unique ((df.filter (fun r => r.cycleType = type)).map Row.cycle))[pos]? = some c ∧
      (df.filter (fun r => r.cycleType = type)).filter (fun r => r.cycle = c) = cycle := by
  obtain ⟨c, hc, rfl⟩ := h
  refine ⟨c, (nth_iff ..).2 hc, ?_⟩
  rw [List.filter_filter]
  apply List.filter_congr
  intro r _
  rw [Bool.eq_iff_iff, Bool.and_eq_true, decide_eq_true_iff, decide_eq_true_iff, decide_eq_true_iff]
  exact and_comm

theorem stepRows_eq {df : List Row} {type : String} {pos i : Nat} {cycle rows : List Row} (h : IsCycle df type pos cycle)
    (hs : IsStep cycle i rows) : stepRows (df.filter (fun r => r.cycleType = type)) pos i = .ok rows := by
  obtain ⟨c, hc, rfl⟩ := cycle_sub h
  obtain ⟨s, hs, rfl⟩ := hs
  unfold stepRows
  rw [hc]
  simp only
  rw [(nth_iff ..).2 hs]

theorem filter_both (df : List Row) (type : String) (c : Int) :
    df.filter (fun r => r.cycleType = type ∧ r.cycle = c) = (df.filter (fun r => r.cycleType = type)).filter (fun r => r.cycle = c) := by
  rw [List.filter_filter]
  apply List.filter_congr
  intro r _
  rw [Bool.eq_iff_iff, Bool.and_eq_true, decide_eq_true_iff, decide_eq_true_iff, decide_eq_true_iff]
  exact and_comm

/-- C105: for every type asked for whose first cycle has two steps, every metric, step and position, there is a channel
of that name, made of the rows of that step of the cycle at that position among the cycles of the type -/
theorem C105_channel (cols : List String) (impute : Bool) (metrics types : List String) (positions : List Nat)
    (df : List Row) (f : List (String × List (Option Rat)))
    (h : images cols impute metrics types positions df = .ok f) (type metric : String) (pos i : Nat)
    (ht : type ∈ types) (hm : metric ∈ metrics) (hp : pos ∈ positions) (hi : i < 2) (first : List Row)
    (hf : IsCycle df type 0 first) (h2 : TwoSteps first) :
    ∃ cycle rows y, IsCycle df type pos cycle ∧ IsStep cycle i rows ∧ channel cols impute metric rows = .ok y ∧
      ("diag_cycle_" ++ toString pos ++ "_" ++ type ++ "_" ++ metric ++ "_step_" ++ toString i, y) ∈ f := by
  unfold images at h
  cases hmE : Summary.mapE (ofType cols impute metrics positions df) types with
  | error e => rw [hmE] at h; cases h
  | ok ls =>
    rw [hmE] at h
    simp only at h
    split at h
    · cases h
    · cases h
      obtain ⟨k, hk⟩ := List.getElem?_of_mem ht
      obtain ⟨l, hl, hlk⟩ := (Summary.mapE_ok hmE).2 k type hk
      obtain ⟨c, hc, rfl⟩ := cycle_sub hf
      unfold ofType at hl
      simp only [hc] at hl
      rw [if_neg (by rw [unique_length]; exact fun hn => hn h2)] at hl
      have hq : (metric, i, pos) ∈ metrics.flatMap (fun m => (List.range 2).flatMap (fun i => positions.map (fun p => (m, i, p)))) :=
        List.mem_flatMap.2 ⟨metric, hm, List.mem_flatMap.2 ⟨i, List.mem_range.2 hi, List.mem_map.2 ⟨pos, hp, rfl⟩⟩⟩
      obtain ⟨j, hj⟩ := List.getElem?_of_mem hq
      obtain ⟨b, hb, hbj⟩ := (Summary.mapE_ok hl).2 j _ hj
      unfold one at hb
      simp only [bind, Except.bind] at hb
      cases hr : stepRows (df.filter (fun r => r.cycleType = type)) pos i with
      | error e => rw [hr] at hb; cases hb
      | ok rows =>
        rw [hr] at hb
        simp only at hb
        cases hy : channel cols impute metric rows with
        | error e => rw [hy] at hb; cases hb
        | ok y =>
          rw [hy] at hb
          cases hb
          unfold stepRows at hr
          cases hc' : (unique ((df.filter (fun r => r.cycleType = type)).map Row.cycle))[pos]? with
          | none => rw [hc'] at hr; cases hr
          | some c' =>
            rw [hc'] at hr
            simp only at hr
            cases hs : (unique (((df.filter (fun r => r.cycleType = type)).filter (fun r => r.cycle = c')).map Row.step))[i]? with
            | none => rw [hs] at hr; cases hr
            | some s =>
              rw [hs] at hr
              cases hr
              refine ⟨_, _, y, ⟨c', (nth_iff ..).1 hc', rfl⟩, ⟨s, ?_, rfl⟩, ?_, ?_⟩
              · rw [← nth_iff, filter_both]
                exact hs
              · rw [filter_both]
                exact hy
              · exact List.mem_flatten.2 ⟨l, List.mem_of_getElem? hlk, List.mem_of_getElem? hbj⟩

/-- C105: a type whose first cycle does not have two steps has no channels, without an error -/
theorem C105_skipped_violated (cols : List String) (impute : Bool) (metrics : List String) (positions : List Nat)
    (df : List Row) (type : String) (first : List Row) (hf : IsCycle df type 0 first) (h2 : ¬ TwoSteps first) :
    ofType cols impute metrics positions df type = .ok [] := by
  obtain ⟨c, hc, rfl⟩ := cycle_sub hf
  unfold ofType
  simp only [hc]
  rw [if_pos (by rw [unique_length]; exact h2)]

theorem ffill_length (p : Option Rat) (l : List (Option Rat)) : (ffill p l).length = l.length := by
  induction l generalizing p with
  | nil => rfl
  | cons a l ih => cases a <;> simp [ffill, ih]

theorem bfill_length (l : List (Option Rat)) : (bfill l).length = l.length := by
  induction l with
  | nil => rfl
  | cons a l ih =>
    cases a with
    | some x => simp [bfill, ih]
    | none =>
      rw [bfill]
      cases h : bfill l with
      | nil => rw [h] at ih; simp at ih ⊢; exact List.length_eq_zero_iff.1 ih.symm
      | cons y m => rw [h] at ih; simp at ih ⊢; omega

/-- forward filling with a value before -/
theorem ffill_some (x : Rat) (l : List (Option Rat)) (k : Nat) (hk : k < l.length) :
    (∃ j v, j ≤ k ∧ l[j]? = some (some v) ∧ (ffill (some x) l)[k]? = some (some v) ∧ ∀ i, j < i → i ≤ k → l[i]? = some none) ∨
    ((ffill (some x) l)[k]? = some (some x) ∧ ∀ i, i ≤ k → l[i]? = some none) := by
  induction l generalizing x k with
  | nil => simp at hk
  | cons a l ih =>
    cases a with
    | some y =>
      left
      cases k with
      | zero => exact ⟨0, y, le_refl _, rfl, rfl, fun i h1 h2 => by omega⟩
      | succ k =>
        rcases ih y k (by simpa using hk) with ⟨j, v, hj, h1, h2, h3⟩ | ⟨h1, h2⟩
        · refine ⟨j + 1, v, by omega, by simpa using h1, by simpa [ffill] using h2, ?_⟩
          intro i h4 h5
          obtain ⟨i, rfl⟩ : ∃ i', i = i' + 1 := ⟨i - 1, by omega⟩
          rw [List.getElem?_cons_succ]
          exact h3 i (by omega) (by omega)
        · refine ⟨0, y, by omega, rfl, by simpa [ffill] using h1, ?_⟩
          intro i h4 h5
          obtain ⟨i, rfl⟩ : ∃ i', i = i' + 1 := ⟨i - 1, by omega⟩
          rw [List.getElem?_cons_succ]
          exact h2 i (by omega)
    | none =>
      cases k with
      | zero =>
        right
        refine ⟨rfl, ?_⟩
        intro i hi
        obtain rfl : i = 0 := by omega
        rfl
      | succ k =>
        rcases ih x k (by simpa using hk) with ⟨j, v, hj, h1, h2, h3⟩ | ⟨h1, h2⟩
        · left
          refine ⟨j + 1, v, by omega, by simpa using h1, by simpa [ffill] using h2, ?_⟩
          intro i h4 h5
          obtain ⟨i, rfl⟩ : ∃ i', i = i' + 1 := ⟨i - 1, by omega⟩
          rw [List.getElem?_cons_succ]
          exact h3 i (by omega) (by omega)
        · right
          refine ⟨by simpa [ffill] using h1, ?_⟩
          intro i hi
          cases i with
          | zero => rfl
          | succ i => rw [List.getElem?_cons_succ]; exact h2 i (by omega)

theorem bfill_all (l : List (Option Rat)) (h : ∀ x ∈ l, x ≠ none) : bfill l = l := by
  induction l with
  | nil => rfl
  | cons a l ih => cases a with
    | none => exact absurd rfl (h none (List.mem_cons_self ..))
    | some x => rw [bfill, ih (fun y hy => h y (List.mem_cons_of_mem _ hy))]

theorem ffill_present (x : Rat) (l : List (Option Rat)) : ∀ y ∈ ffill (some x) l, y ≠ none := by
  induction l generalizing x with
  | nil => simp [ffill]
  | cons a l ih => cases a with
    | some v =>
      intro y hy
      rw [ffill] at hy
      rcases List.mem_cons.1 hy with rfl | hy
      · simp
      · exact ih v y hy
    | none =>
      intro y hy
      rw [ffill] at hy
      rcases List.mem_cons.1 hy with rfl | hy
      · simp
      · exact ih x y hy

/-- C105, imputation of capacities and energies: missing values are filled forwards and then backwards, so nothing is
missing if there is any value -/
theorem C105_filled (s : List (Option Rat)) (h : ∃ v, some v ∈ s) : Filled s (bfill (ffill none s)) := by
  refine ⟨by rw [bfill_length, ffill_length], ?_⟩
  induction s with
  | nil => obtain ⟨v, hv⟩ := h; cases hv
  | cons a s ih =>
    cases a with
    | some x =>
      rw [ffill, bfill, bfill_all _ (ffill_present x s)]
      intro k hk
      have := ffill_some x (some x :: s) k hk
      rw [ffill] at this
      rcases this with ⟨j, v, hj, h1, h2, h3⟩ | ⟨h1, h2⟩
      · exact ⟨j, v, h1, h2, .inl ⟨hj, h3⟩⟩
      · exact absurd (h2 0 (by omega)) (by simp)
    | none =>
      have h' : ∃ v, some v ∈ s := by
        obtain ⟨v, hv⟩ := h
        exact ⟨v, by simpa using hv⟩
      have ih := ih h'
      rw [ffill, bfill]
      have hne : bfill (ffill none s) ≠ [] := by
        intro e
        have := congrArg List.length e
        rw [bfill_length, ffill_length] at this
        obtain ⟨v, hv⟩ := h'
        have hp := List.length_pos_of_mem hv
        rw [this] at hp
        exact absurd hp (by simp)
      cases hb : bfill (ffill none s) with
      | nil => exact absurd hb hne
      | cons y m =>
        rw [hb] at ih
        have shift : ∀ k, k < s.length → ∃ j v, (none :: s)[j]? = some (some v) ∧ (y :: m)[k]? = some (some v) ∧
            ((j ≤ k + 1 ∧ ∀ i, j < i → i ≤ k + 1 → (none :: s)[i]? = some none) ∨ (k + 1 < j ∧ ∀ i, i < j → (none :: s)[i]? = some none)) := by
          intro k hk
          obtain ⟨j, v, h1, h2, h3⟩ := ih k hk
          refine ⟨j + 1, v, by simpa using h1, h2, ?_⟩
          rcases h3 with ⟨h3, h4⟩ | ⟨h3, h4⟩
          · left
            refine ⟨by omega, ?_⟩
            intro i h5 h6
            obtain ⟨i, rfl⟩ : ∃ i', i = i' + 1 := ⟨i - 1, by omega⟩
            rw [List.getElem?_cons_succ]
            exact h4 i (by omega) (by omega)
          · right
            refine ⟨by omega, ?_⟩
            intro i h5
            cases i with
            | zero => rfl
            | succ i => rw [List.getElem?_cons_succ]; exact h4 i (by omega)
        intro k hk
        cases k with
        | succ k =>
          obtain ⟨j, v, h1, h2, h3⟩ := shift k (by simpa using hk)
          exact ⟨j, v, h1, by simpa using h2, h3⟩
        | zero =>
          have hpos : 0 < s.length := by
            obtain ⟨v, hv⟩ := h'
            exact List.length_pos_of_mem hv
          obtain ⟨j, v, h1, h2, h3⟩ := ih 0 hpos
          refine ⟨j + 1, v, by simpa using h1, by simpa using h2, ?_⟩
          right
          refine ⟨by omega, ?_⟩
          intro i hi
          cases i with
          | zero => rfl
          | succ i =>
            rw [List.getElem?_cons_succ]
            rcases h3 with ⟨h3, h4⟩ | ⟨h3, h4⟩
            · omega
            · exact h4 i (by omega)

/-- C105, imputation leaves nothing missing: violated if all values are missing -/
theorem C105_impute_violated (s : List (Option Rat)) (h : ∀ x ∈ s, x = none) : bfill (ffill none s) = s := by
  induction s with
  | nil => rfl
  | cons a s ih =>
    cases h a (List.mem_cons_self ..)
    have ih := ih (fun x hx => h x (List.mem_cons_of_mem _ hx))
    rw [ffill, bfill, ih]
    cases s with
    | nil => rfl
    | cons b s => rw [h b (by simp)]

theorem maxN_const (l : List (Option Rat)) (m : Rat) (h : ∀ x ∈ l, x = some m) (hne : l ≠ []) : maxN l = some m := by
  cases hm : maxN l with
  | none =>
    rw [maxN_none] at hm
    obtain ⟨x, hx⟩ := List.exists_mem_of_ne_nil _ hne
    exact absurd ⟨m, by rw [← h x hx]; exact hx⟩ hm
  | some v => rw [← h _ (maxN_some _ _ hm).1]

theorem zipWith_rows (rows : List Row) (a b : String) (g : Option Rat → Option Rat → Option Rat) :
    List.zipWith g (rows.map (fun r => r.val a)) (rows.map (fun r => r.val b)) = rows.map (fun r => g (r.val a) (r.val b)) := by
  rw [List.zipWith_map, List.zipWith_self]

theorem capacity_eq (cols : List String) (metric : String) (hm : metric = "capacity" ∨ metric = "energy")
    (hc : "charge_" ++ metric ∈ cols) (hd : "discharge_" ++ metric ∈ cols) (rows : List Row) (impute : Bool) :
    channel cols impute metric rows =
      let s := rows.map (fun r => minimum (r.val ("charge_" ++ metric))
        (subN (maxN (rows.map (fun r => r.val ("charge_" ++ metric)))) (r.val ("discharge_" ++ metric))))
      .ok (if impute then bfill (ffill none s) else s) := by
  unfold channel column
  rw [if_pos hm, if_pos hc, if_pos hd]
  simp only [bind, Except.bind, zipWith_rows]

/-- C105 (partial: for a step that only charges from the begin of the cycle, or only discharges after a charge): the
channel of the capacity (or energy) is what has been charged, in the charge step, and what is left of it, in the
discharge step -/
theorem C105_capacity_partial (cols : List String) (metric : String) (hm : metric = "capacity" ∨ metric = "energy")
    (hc : "charge_" ++ metric ∈ cols) (hd : "discharge_" ++ metric ∈ cols) (rows : List Row) (q : Row → Rat) :
    ((∀ r ∈ rows, r.val ("charge_" ++ metric) = some (q r) ∧ r.val ("discharge_" ++ metric) = some 0) →
      channel cols false metric rows = .ok (rows.map (fun r => some (q r)))) ∧
    (∀ full, (∀ r ∈ rows, r.val ("charge_" ++ metric) = some full ∧ r.val ("discharge_" ++ metric) = some (q r) ∧ 0 ≤ q r) →
      channel cols false metric rows = .ok (rows.map (fun r => some (full - q r)))) := by
  constructor
  · intro h
    rw [capacity_eq cols metric hm hc hd]
    simp only [Bool.false_eq_true, if_false]
    congr 1
    apply List.map_congr_left
    intro r hr
    cases hM : maxN (rows.map (fun r => r.val ("charge_" ++ metric))) with
    | none =>
      rw [maxN_none] at hM
      exact absurd ⟨q r, List.mem_map.2 ⟨r, hr, (h r hr).1⟩⟩ hM
    | some M =>
      have := (maxN_some _ _ hM).2 (q r) (List.mem_map.2 ⟨r, hr, (h r hr).1⟩)
      rw [(h r hr).1, (h r hr).2]
      simp only [subN, minimum, sub_zero]
      rw [if_neg (not_lt.2 this)]
  · intro full h
    rw [capacity_eq cols metric hm hc hd]
    simp only [Bool.false_eq_true, if_false]
    congr 1
    apply List.map_congr_left
    intro r hr
    have hM : maxN (rows.map (fun r => r.val ("charge_" ++ metric))) = some full := by
      apply maxN_const
      · intro x hx
        obtain ⟨r', hr', rfl⟩ := List.mem_map.1 hx
        exact (h r' hr').1
      · exact List.ne_nil_of_mem (List.mem_map.2 ⟨r, hr, rfl⟩)
    obtain ⟨h1, h2, h3⟩ := h r hr
    rw [hM, h1, h2]
    simp only [subN, minimum]
    split
    · rfl
    · rw [show q r = 0 by linarith, sub_zero]

/-- C105: in a charge step after a discharge of `d` in the same cycle, the channel ends at `d` below what was charged -/
theorem C105_discharged_violated (cols : List String) (metric : String) (hm : metric = "capacity" ∨ metric = "energy")
    (hc : "charge_" ++ metric ∈ cols) (hd : "discharge_" ++ metric ∈ cols) (rows : List Row) (q : Row → Rat) (d : Rat)
    (hpos : 0 < d)
    (h : ∀ r ∈ rows, r.val ("charge_" ++ metric) = some (q r) ∧ r.val ("discharge_" ++ metric) = some d)
    (y : List (Option Rat)) (hy : channel cols false metric rows = .ok y) (k : Nat) (r : Row) (hr : rows[k]? = some r)
    (hmax : ∀ r' ∈ rows, q r' ≤ q r) : y[k]? = some (some (q r - d)) := by
  rw [capacity_eq cols metric hm hc hd] at hy
  simp only [Bool.false_eq_true, if_false] at hy
  cases hy
  have hmem := List.mem_of_getElem? hr
  have hM : maxN (rows.map (fun r => r.val ("charge_" ++ metric))) = some (q r) := by
    cases hM : maxN (rows.map (fun r => r.val ("charge_" ++ metric))) with
    | none =>
      rw [maxN_none] at hM
      exact absurd ⟨q r, List.mem_map.2 ⟨r, hmem, (h r hmem).1⟩⟩ hM
    | some M =>
      have h1 := (maxN_some _ _ hM).2 (q r) (List.mem_map.2 ⟨r, hmem, (h r hmem).1⟩)
      obtain ⟨r', hr', e⟩ := List.mem_map.1 (maxN_some _ _ hM).1
      rw [(h r' hr').1] at e
      have h2 := hmax r' hr'
      rw [Option.some.inj e] at h2
      congr 1
      linarith
  rw [List.getElem?_map, hr, hM, Option.map_some, (h r hmem).1, (h r hmem).2]
  simp only [subN, minimum]
  rw [if_pos (by linarith)]

/-- C105: times count from the earliest of the step; with imputation a missing time is 0, the begin of the step -/
theorem C105_time (cols : List String) (ht : "test_time" ∈ cols) (rows : List Row) (start : Rat)
    (hs : IsLeast (rows.map (fun r => r.val "test_time")) start) (impute : Bool) :
    ∃ y, channel cols impute "test_time" rows = .ok y ∧ y.length = rows.length ∧ ∀ (k : Nat) (r : Row), rows[k]? = some r →
      (∀ t, r.val "test_time" = some t → y[k]? = some (some (t - start))) ∧
      (r.val "test_time" = none → y[k]? = some (if impute then some 0 else none)) := by
  have hmin : minN (rows.map (fun r => r.val "test_time")) = some start := by
    cases hm : minN (rows.map (fun r => r.val "test_time")) with
    | none => rw [minN_none] at hm; exact absurd ⟨_, hs.1⟩ hm
    | some m =>
      have := minN_some _ _ hm
      congr 1
      exact le_antisymm (this.2 _ hs.1) (hs.2 _ this.1)
  have hy : channel cols impute "test_time" rows = .ok (let t := (rows.map (fun r => r.val "test_time")).map (fun x => subN x (some start));
      if impute then nanToNum t else t) := by
    unfold channel column
    rw [if_neg (by decide), if_pos rfl, if_pos ht]
    simp only [bind, Except.bind, hmin]
  refine ⟨_, hy, ?_, ?_⟩
  · cases impute <;> simp [nanToNum]
  · intro k r hr
    constructor
    · intro t e
      cases impute <;> simp [nanToNum, hr, e, subN]
    · intro e
      cases impute <;> simp [nanToNum, hr, e, subN]

/-- C105: the channel of dQ/dV is the sum over charge and discharge; with imputation missing sums are 0 -/
theorem C105_dqdv (cols : List String) (hc : "charge_dQdV" ∈ cols) (hd : "discharge_dQdV" ∈ cols) (rows : List Row)
    (impute : Bool) :
    ∃ y, channel cols impute "dQdV" rows = .ok y ∧ y.length = rows.length ∧ ∀ (k : Nat) (r : Row), rows[k]? = some r →
      (∀ a b, r.val "charge_dQdV" = some a → r.val "discharge_dQdV" = some b → y[k]? = some (some (a + b))) ∧
      (r.val "charge_dQdV" = none ∨ r.val "discharge_dQdV" = none → y[k]? = some (if impute then some 0 else none)) := by
  have e1 : "charge_" ++ "dQdV" = "charge_dQdV" := by decide +kernel
  have e2 : "discharge_" ++ "dQdV" = "discharge_dQdV" := by decide +kernel
  have hy : channel cols impute "dQdV" rows = .ok (let t := rows.map (fun r => addN (r.val "charge_dQdV") (r.val "discharge_dQdV"));
      if impute then nanToNum t else t) := by
    unfold channel column
    rw [if_neg (by decide), if_neg (by decide), if_pos rfl, e1, e2, if_pos hc, if_pos hd]
    simp only [bind, Except.bind, zipWith_rows]
  refine ⟨_, hy, ?_, ?_⟩
  · cases impute <;> simp [nanToNum]
  · intro k r hr
    constructor
    · intro a b ha hb
      cases impute <;> simp [nanToNum, hr, ha, hb, addN]
    · rintro (e | e)
      · cases impute <;> simp [nanToNum, hr, e, addN]
      · cases impute <;> cases r.val "charge_dQdV" <;> simp [nanToNum, hr, e, addN]

/-- C105: any other column is passed on as it is, imputed or not -/
theorem C105_other (cols : List String) (metric : String) (hm : metric ∈ cols)
    (h : metric ∉ ["capacity", "energy", "test_time", "dQdV"]) (impute : Bool) (rows : List Row) :
    channel cols impute metric rows = .ok (rows.map (fun r => r.val metric)) := by
  simp only [List.mem_cons, List.not_mem_nil, or_false, not_or] at h
  obtain ⟨h1, h2, h3, h4⟩ := h
  unfold channel column
  rw [if_neg (by simp [h1, h2]), if_neg h3, if_neg h4, if_pos hm]

/-- C105 with imputation: the capacity (or energy) is what it is without, with its gaps filled -/
theorem C105_capacity_filled (cols : List String) (metric : String) (hm : metric = "capacity" ∨ metric = "energy")
    (rows : List Row) (s : List (Option Rat)) (hs : channel cols false metric rows = .ok s) (hv : ∃ v, some v ∈ s) :
    ∃ y, channel cols true metric rows = .ok y ∧ Filled s y := by
  unfold channel at hs ⊢
  rw [if_pos hm] at hs ⊢
  simp only [bind, Except.bind] at hs ⊢
  cases h1 : column cols rows ("charge_" ++ metric) with
  | error e => rw [h1] at hs; cases hs
  | ok c =>
    rw [h1] at hs
    simp only at hs ⊢
    cases h2 : column cols rows ("discharge_" ++ metric) with
    | error e => rw [h2] at hs; cases hs
    | ok d =>
      rw [h2] at hs
      cases hs
      exact ⟨_, rfl, C105_filled _ hv⟩

/-- all elements succeed, so does the whole -/
theorem mapE_all {α β : Type} (f : α → Except Err β) (l : List α) (h : ∀ a ∈ l, ∃ b, f a = .ok b) :
    ∃ r, Summary.mapE f l = .ok r := by
  induction l with
  | nil => exact ⟨[], rfl⟩
  | cons a l ih =>
    obtain ⟨b, hb⟩ := h a List.mem_cons_self
    obtain ⟨r, hr⟩ := ih (fun x hx => h x (List.mem_cons_of_mem _ hx))
    exact ⟨b :: r, by unfold Summary.mapE; rw [hb, hr]⟩

theorem channel_made (cols : List String) (impute : Bool) (metric : String) (rows : List Row)
    (h : ∀ c ∈ needed metric, c ∈ cols) : ∃ y, channel cols impute metric rows = .ok y := by
  have hcol : ∀ c ∈ needed metric, column cols rows c = .ok (rows.map (fun r => r.val c)) := by
    intro c hc
    unfold column
    rw [if_pos (h c hc)]
  unfold channel
  by_cases h1 : metric = "capacity" ∨ metric = "energy"
  · have hn : needed metric = ["charge_" ++ metric, "discharge_" ++ metric] := by
      unfold needed
      rw [if_pos (by rcases h1 with h1 | h1 <;> subst h1 <;> decide)]
    rw [if_pos h1, hcol _ (by rw [hn]; exact List.mem_cons_self), hcol _ (by rw [hn]; exact .tail _ (.head _))]
    exact ⟨_, rfl⟩
  · rw [if_neg h1]
    by_cases h2 : metric = "test_time"
    · rw [if_pos h2]
      subst h2
      rw [hcol "test_time" (by decide)]
      exact ⟨_, rfl⟩
    · rw [if_neg h2]
      by_cases h3 : metric = "dQdV"
      · rw [if_pos h3]
        subst h3
        rw [hcol ("charge_" ++ "dQdV") (by decide), hcol ("discharge_" ++ "dQdV") (by decide)]
        exact ⟨_, rfl⟩
      · rw [if_neg h3, hcol metric]
        · exact ⟨_, rfl⟩
        · unfold needed
          rw [if_neg]
          · exact List.mem_cons_self
          · intro hm
            simp only [List.mem_cons, List.not_mem_nil, or_false] at hm
            rcases hm with hm | hm | hm
            · exact h1 (.inl hm)
            · exact h1 (.inr hm)
            · exact h3 hm

/-- C105: the images are made when every type asked for has a cycle, at least one type has a first cycle of two steps,
every such type has cycles of two or more steps at the positions asked for, and the columns are there. -/
theorem C105_made (cols : List String) (impute : Bool) (metrics types : List String) (positions : List Nat)
    (df : List Row) (hm : metrics ≠ []) (hp : positions ≠ [])
    (hall : ∀ type ∈ types, ∃ first, IsCycle df type 0 first ∧ (TwoSteps first → ∀ pos ∈ positions, ∃ cycle,
      IsCycle df type pos cycle ∧ ∀ i, i < 2 → ∃ rows, IsStep cycle i rows))
    (hsome : ∃ type ∈ types, ∃ first, IsCycle df type 0 first ∧ TwoSteps first)
    (hcols : ∀ m ∈ metrics, ∀ c ∈ needed m, c ∈ cols) :
    ∃ f, images cols impute metrics types positions df = .ok f := by
  have hone : ∀ type ∈ types, ∃ l, ofType cols impute metrics positions df type = .ok l := by
    intro type ht
    obtain ⟨first, hf, hpos⟩ := hall type ht
    obtain ⟨c, hc, rfl⟩ := cycle_sub hf
    unfold ofType
    simp only [hc]
    split
    · exact ⟨[], rfl⟩
    · rename_i h2
      rw [unique_length, not_not] at h2
      apply mapE_all
      rintro ⟨m, i, pos⟩ hq
      obtain ⟨m', hm', hq⟩ := List.mem_flatMap.1 hq
      obtain ⟨i', hi', hq⟩ := List.mem_flatMap.1 hq
      obtain ⟨p', hp', e⟩ := List.mem_map.1 hq
      cases e
      obtain ⟨cycle, hcy, hst⟩ := hpos h2 pos hp'
      obtain ⟨rows, hr⟩ := hst i (List.mem_range.1 hi')
      obtain ⟨y, hy⟩ := channel_made cols impute m rows (hcols m hm')
      refine ⟨(name type m i pos, y), ?_⟩
      unfold one
      simp only [stepRows_eq hcy hr, hy, bind, Except.bind]
  obtain ⟨ls, hls⟩ := mapE_all _ types hone
  refine ⟨ls.flatten, ?_⟩
  unfold images
  rw [hls]
  simp only
  rw [if_neg]
  intro he
  obtain ⟨type, ht, first, hf, h2⟩ := hsome
  obtain ⟨k, hk⟩ := List.getElem?_of_mem ht
  obtain ⟨l, hl, hlk⟩ := (Summary.mapE_ok hls).2 k type hk
  have hl0 : l = [] := List.flatten_eq_nil_iff.1 he l (List.mem_of_getElem? hlk)
  obtain ⟨c, hc, rfl⟩ := cycle_sub hf
  unfold ofType at hl
  simp only [hc] at hl
  rw [if_neg (by rw [unique_length]; exact fun hn => hn h2)] at hl
  have hlen := (Summary.mapE_ok hl).1
  rw [hl0] at hlen
  have hnil := List.eq_nil_of_length_eq_zero hlen.symm
  obtain ⟨m, hm⟩ := List.exists_mem_of_ne_nil _ hm
  obtain ⟨p, hp⟩ := List.exists_mem_of_ne_nil _ hp
  have hq : (m, 0, p) ∈ metrics.flatMap (fun m => (List.range 2).flatMap (fun i => positions.map (fun p => (m, i, p)))) :=
    List.mem_flatMap.2 ⟨m, hm, List.mem_flatMap.2 ⟨0, by decide, List.mem_map.2 ⟨p, hp, rfl⟩⟩⟩
  rw [hnil] at hq
  cases hq

/-- C105: if the first cycle of no type has two steps there are no channels at all, and the creation of the image raises
instead of giving an empty one -/
theorem C105_nothing_violated (cols : List String) (impute : Bool) (metrics types : List String) (positions : List Nat)
    (df : List Row) (h : ∀ type ∈ types, ∃ first, IsCycle df type 0 first ∧ ¬ TwoSteps first) :
    images cols impute metrics types positions df = .error .valueError := by
  have hls : ∀ ts : List String, (∀ type ∈ ts, type ∈ types) → ∃ ls, Summary.mapE (ofType cols impute metrics positions df) ts = .ok ls ∧
      ls.flatten = [] := by
    intro ts hts
    obtain ⟨ls, hls⟩ := mapE_all (ofType cols impute metrics positions df) ts (fun type ht => by
      obtain ⟨first, hf, h2⟩ := h type (hts type ht)
      exact ⟨[], C105_skipped_violated cols impute metrics positions df type first hf h2⟩)
    refine ⟨ls, hls, List.flatten_eq_nil_iff.2 (fun l hl => ?_)⟩
    obtain ⟨k, hk⟩ := List.getElem?_of_mem hl
    have hlen := (Summary.mapE_ok hls).1
    have hkt : k < ts.length := by
      have := (List.getElem?_eq_some_iff.1 hk).1
      omega
    obtain ⟨b, hb, hbk⟩ := (Summary.mapE_ok hls).2 k _ (List.getElem?_eq_getElem hkt)
    obtain ⟨first, hf, h2⟩ := h _ (hts _ (List.getElem_mem hkt))
    rw [C105_skipped_violated cols impute metrics positions df _ first hf h2] at hb
    rw [hk] at hbk
    cases hbk; cases hb; rfl
  obtain ⟨ls, h1, h2⟩ := hls types (fun _ h => h)
  unfold images
  rw [h1]
  simp only
  rw [if_pos h2]

/-- C86: a type without a cycle in the data raises, whatever the data -/
theorem C86_image_violated (cols : List String) (impute : Bool) (metrics types : List String) (positions : List Nat)
    (df : List Row) (type : String) (ht : type ∈ types) (h : ∀ r ∈ df, r.cycleType ≠ type) :
    ∃ e, images cols impute metrics types positions df = .error e := by
  unfold images
  have hsub : df.filter (fun r => r.cycleType = type) = [] := by
    rw [List.filter_eq_nil_iff]
    intro r hr
    simpa using h r hr
  have he : ofType cols impute metrics positions df type = .error .indexError := by
    unfold ofType
    rw [hsub]
    rfl
  obtain ⟨e, h⟩ := mapE_raises (ofType cols impute metrics positions df) types type ht ⟨_, he⟩
  exact ⟨e, by rw [h]⟩

/-! ### C106 -/

/-- C106 (partial: for a project with one parameter file, see C94): the features are the quantities asked for, in order,
of the rows of the run in the project's file; the raw file's name decides if there is one -/
theorem C106_quantities_partial (raw structured : Option Str) (path project : Str) (n : Nat)
    (hp : raw = some path ∨ raw = none ∧ structured = some path) (h : Spec.Ingest.RunFile path project n)
    (pre post : List (Str × List Ingest.PRow)) (f : Str × List Ingest.PRow) (hf : Spec.Ingest.BelongsTo f.1 project)
    (ho : ∀ g ∈ pre ++ post, ¬ project <+: g.1) (hn : ∃ r ∈ f.2, r.seq = n) (quantities : List String)
    (v : Ingest.PRow → String → Rat)
    (hq : ∀ r ∈ f.2, r.seq = n → ∀ q ∈ quantities, Dict.get? r.vals q = some (v r q)) :
    ∃ rows, List.Sublist rows f.2 ∧ (∀ r, r ∈ rows ↔ r ∈ f.2 ∧ r.seq = n) ∧
      chargingProtocol (pre ++ f :: post) raw structured quantities =
        .ok (rows.map (fun r => quantities.map (fun q => (q, v r q)))) := by
  obtain ⟨rows, e, hs, hr⟩ := (Props.Ingest.C94_own_partial path project n h pre post f hf ho).2 hn
  refine ⟨rows, hs, hr, ?_⟩
  unfold chargingProtocol
  have : raw.or structured = some path := by
    rcases hp with rfl | ⟨rfl, rfl⟩ <;> rfl
  rw [this]
  simp only
  rw [e]
  simp only
  unfold select
  apply mapE_map
  intro r hr'
  apply mapE_map
  intro q hq'
  rw [hq r ((hr r).1 hr').1 ((hr r).1 hr').2 q hq']

/-- C106, C86: a run without a row in the project's file, or without a parameter file, passes validation and raises
`TypeError` -/
theorem C106_missing_violated (raw structured : Option Str) (path project : Str) (n : Nat)
    (hp : raw = some path ∨ raw = none ∧ structured = some path) (h : Spec.Ingest.RunFile path project n)
    (dir : List (Str × List Ingest.PRow)) (quantities : List String)
    (hd : (∀ g ∈ dir, ¬ project <+: g.1) ∨ ∃ (pre post : List (Str × List Ingest.PRow)) (f : Str × List Ingest.PRow), dir = pre ++ f :: post ∧ Spec.Ingest.BelongsTo f.1 project ∧
      (∀ g ∈ pre ++ post, ¬ project <+: g.1) ∧ ∀ r ∈ f.2, r.seq ≠ n) :
    protocolValid raw structured = true ∧ chargingProtocol dir raw structured quantities = .error .typeError := by
  have e : raw.or structured = some path := by
    rcases hp with rfl | ⟨rfl, rfl⟩ <;> rfl
  have e2 : Ingest.protocolParameters dir path = .ok none := by
    rcases hd with hd | ⟨pre, post, f, rfl, hf, ho, hn⟩
    · exact Props.Ingest.C94_none_partial path project n h dir hd
    · exact (Props.Ingest.C94_own_partial path project n h pre post f hf ho).1 hn
  constructor
  · rcases hp with rfl | ⟨rfl, rfl⟩ <;> rfl
  · unfold chargingProtocol
    rw [e]
    simp only
    rw [e2]

/-- C106: a quantity that is not a column of the file raises `KeyError` -/
theorem C106_column (dir : List (Str × List Ingest.PRow)) (raw structured : Option Str) (path : Str)
    (hp : raw = some path ∨ raw = none ∧ structured = some path) (rows all : List Ingest.PRow)
    (h : Ingest.protocolParameters dir path = .ok (some (rows, all))) (hne : rows ≠ []) (quantities : List String)
    (q : String) (hq : q ∈ quantities) (hm : ∀ r ∈ rows, Dict.get? r.vals q = none) :
    ∃ e, chargingProtocol dir raw structured quantities = .error e := by
  have e : raw.or structured = some path := by
    rcases hp with rfl | ⟨rfl, rfl⟩ <;> rfl
  unfold chargingProtocol
  rw [e]
  simp only
  rw [h]
  simp only
  unfold select
  obtain ⟨r, hr⟩ := List.exists_mem_of_ne_nil _ hne
  refine mapE_raises _ _ r hr ?_
  refine mapE_raises _ _ q hq ⟨.keyError, ?_⟩
  rw [hm r hr]

/-! ### Examples -/

/-- two reference cycles of a charge and a discharge step -/
def sampleVal (charge discharge t : Rat) : String → Option Rat := fun c =>
  if c = "charge_capacity" then some charge else if c = "discharge_capacity" then some discharge
  else if c = "test_time" then (if t = 30 then none else some t) else none

def sampleRows : List Row :=
  [⟨36, "rpt", 1, sampleVal 0 0 10⟩, ⟨36, "rpt", 1, sampleVal 3 0 20⟩, ⟨36, "rpt", 2, sampleVal 3 0 30⟩, ⟨36, "rpt", 2, sampleVal 3 2 40⟩,
   ⟨141, "rpt", 5, sampleVal 0 0 110⟩, ⟨141, "rpt", 5, sampleVal 2 0 120⟩, ⟨141, "rpt", 6, sampleVal 2 0 130⟩, ⟨141, "rpt", 6, sampleVal 2 1 140⟩]

def sampleCols : List String := ["charge_capacity", "discharge_capacity", "test_time"]

/-- C105: hypotheses and result for the sample -/
example : images sampleCols true ["capacity", "test_time"] ["rpt"] [1] sampleRows = .ok
    [("diag_cycle_1_rpt_capacity_step_0", [some 0, some 2]), ("diag_cycle_1_rpt_capacity_step_1", [some 2, some 1]),
     ("diag_cycle_1_rpt_test_time_step_0", [some 0, some 10]), ("diag_cycle_1_rpt_test_time_step_1", [some 0, some 10])] := by
  decide +kernel

example : IsCycle sampleRows "rpt" 0 (sampleRows.take 4) ∧ TwoSteps (sampleRows.take 4) :=
  ⟨⟨36, (nth_iff ..).1 (by decide +kernel), rfl⟩, by unfold TwoSteps; decide +kernel⟩

/-- C105_made: the sample has the steps and columns that are needed -/
example : ∃ f, images sampleCols true ["capacity", "test_time"] ["rpt"] [1] sampleRows = .ok f := by
  refine C105_made _ _ _ _ _ _ (by decide) (by decide) ?_ ?_ (by decide +kernel)
  · intro type ht
    rw [List.mem_singleton] at ht
    subst ht
    refine ⟨sampleRows.take 4, ⟨36, (nth_iff ..).1 (by decide +kernel), rfl⟩, fun _ pos hp => ?_⟩
    rw [List.mem_singleton] at hp
    subst hp
    refine ⟨sampleRows.drop 4, ⟨141, (nth_iff ..).1 (by decide +kernel), rfl⟩, fun i hi => ?_⟩
    have : i = 0 ∨ i = 1 := by omega
    rcases this with rfl | rfl
    · exact ⟨_, 5, (nth_iff ..).1 (by decide +kernel), rfl⟩
    · exact ⟨_, 6, (nth_iff ..).1 (by decide +kernel), rfl⟩
  · exact ⟨"rpt", by decide, sampleRows.take 4, ⟨36, (nth_iff ..).1 (by decide +kernel), rfl⟩,
      by unfold TwoSteps; decide +kernel⟩

/-- C105_skipped: a cycle of one step -/
example : IsCycle (sampleRows.take 2) "rpt" 0 (sampleRows.take 2) ∧ ¬ TwoSteps (sampleRows.take 2) :=
  ⟨⟨36, (nth_iff ..).1 (by decide +kernel), rfl⟩, by unfold TwoSteps; decide +kernel⟩

/-- C105_filled -/
example : bfill (ffill none [none, some 1, none, some 2, none]) = [some 1, some 1, some 1, some 2, some 2] := by decide +kernel

/-- C105_capacity: a charge and a discharge step -/
example : channel sampleCols false "capacity" (sampleRows.take 2) = .ok [some 0, some 3] ∧
    channel sampleCols false "capacity" ((sampleRows.take 4).drop 2) = .ok [some 3, some 1] := by decide +kernel

/-- C105_discharged: the capacity of a charge step after a discharge of 1 -/
example : channel sampleCols false "capacity" [⟨1, "rpt", 2, sampleVal 0 1 50⟩, ⟨1, "rpt", 2, sampleVal 3 1 60⟩] =
    .ok [some 0, some 2] := by decide +kernel

/-- C105_time: the earliest time of a step with a missing time -/
example : IsLeast ((sampleRows.take 4).map (fun r => r.val "test_time")) 10 ∧
    channel sampleCols false "test_time" (sampleRows.take 4) = .ok [some 0, some 10, none, some 30] := by
  refine ⟨⟨by decide +kernel, ?_⟩, by decide +kernel⟩
  intro v hv
  have : (sampleRows.take 4).map (fun r => r.val "test_time") = [some 10, some 20, none, some 40] := by decide +kernel
  rw [this] at hv
  simp at hv
  rcases hv with rfl | rfl | rfl <;> norm_num

/-- C106: the run `PreDiag_000123` of a directory with its project's file -/
def sampleDir : List (Str × List Ingest.PRow) :=
  [("PreDiag_parameters - DP.csv".toList, [⟨122, [("a", 1), ("b", 2)]⟩, ⟨123, [("a", 3), ("b", 4)]⟩])]

example : chargingProtocol sampleDir (some "PreDiag_000123_0.092".toList) (some "x".toList) ["b"] = .ok [[("b", 4)]] ∧
    chargingProtocol sampleDir none (some "PreDiag_000124_0.092".toList) ["b"] = .error .typeError ∧
    chargingProtocol sampleDir none (some "PreDiag_000123_0.092".toList) ["c"] = .error .keyError := by
  decide +kernel

/-! ### C86, trajectories -/

/-- C86: the validation of trajectories accepts data of which the smallest capacity is less than the given
fraction of the largest -/
theorem C86_trajectory_validated (s : Summary.Caps) (maxCap : Rat) (_hpos : ∀ r ∈ s, 0 < r.2) :
    trajectoryValid s maxCap = true ↔
      ∃ lo ∈ s, ∃ hi ∈ s, (∀ r ∈ s, lo.2 ≤ r.2 ∧ r.2 ≤ hi.2) ∧ lo.2 / hi.2 < maxCap := by
  unfold trajectoryValid
  have hmem : ∀ v : Rat, some v ∈ s.map (fun r => some r.2) ↔ ∃ r ∈ s, r.2 = v := by
    intro v; simp [eq_comm]
  cases h1 : minN (s.map (fun r => some r.2)) with
  | none =>
    rw [minN_none] at h1
    simp only [Bool.false_eq_true, false_iff]
    rintro ⟨lo, hlo, _⟩
    exact h1 ⟨lo.2, List.mem_map.mpr ⟨lo, hlo, rfl⟩⟩
  | some a =>
    obtain ⟨ha, ha'⟩ := minN_some _ _ h1
    cases h2 : maxN (s.map (fun r => some r.2)) with
    | none =>
      rw [maxN_none] at h2
      exact absurd ⟨a, ha⟩ h2
    | some b =>
      obtain ⟨hb, hb'⟩ := maxN_some _ _ h2
      simp only [decide_eq_true_eq]
      obtain ⟨lo, hlo, rfl⟩ := (hmem a).mp ha
      obtain ⟨hi, hhi, rfl⟩ := (hmem b).mp hb
      constructor
      · intro h
        exact ⟨lo, hlo, hi, hhi, fun r hr => ⟨ha' _ ((hmem _).mpr ⟨r, hr, rfl⟩), hb' _ ((hmem _).mpr ⟨r, hr, rfl⟩)⟩, h⟩
      · rintro ⟨lo', hlo', hi', hhi', hall, h⟩
        have e1 : lo'.2 = lo.2 := le_antisymm (hall lo hlo).1 (ha' _ ((hmem _).mpr ⟨lo', hlo', rfl⟩))
        have e2 : hi'.2 = hi.2 := le_antisymm (hb' _ ((hmem _).mpr ⟨hi', hhi', rfl⟩)) (hall hi hhi).2
        rw [← e1, ← e2]
        exact h

example : trajectoryValid [(0, 12 / 10), (1, 1078 / 1000)] (98 / 100) = true ∧
    trajectoryValid [(0, 1), (1, 98 / 100)] (98 / 100) = false := by decide +kernel

/-- C86: data that passes validation although the capacity never falls far enough below the nominal one: raises -/
theorem C86_trajectory_violated : ∃ s : Summary.Caps, trajectoryValid s (98 / 100) = true ∧
    ∃ e, Summary.capacitiesToCycles s (98 / 100) (78 / 100) (3 / 100) = .error e :=
  ⟨[(0, 12 / 10), (1, 1078 / 1000)], by decide +kernel, .indexError, by decide +kernel⟩

end Beep.Props.RawImage
