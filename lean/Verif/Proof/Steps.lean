import Verif.Proof.Pandas
import Verif.Model.Steps
/-
Helper lemmas for Props/Steps.
-/
namespace Beep.Steps
open Beep.Pandas

theorem complement (b : Bool) (rows : List Row) :
    stepIsChgState false b rows = !stepIsChgState true b rows := by
  unfold stepIsChgState
  split
  · cases b <;> rfl
  · rename_i x _; cases x <;> rfl

theorem mem_stepKeys {rows : List Row} {s : Int} : s ∈ stepKeys rows ↔ ∃ r ∈ rows, r.step = some s := by
  unfold stepKeys
  rw [mem_groupKeys, List.mem_filterMap]

theorem mem_filterGroups {p : List Row → Bool} {rows : List Row} {r : Row} :
    r ∈ filterGroups p rows ↔ r ∈ rows ∧ ∃ s, r.step = some s ∧ p (stepRows rows s) = true := by
  unfold filterGroups
  rw [List.mem_filter]
  cases h : r.step with
  | none => simp
  | some s => simp

/-- the rows of a kept step are the whole step -/
theorem stepRows_filterGroups {p : List Row → Bool} {rows : List Row} {s : Int}
    (h : p (stepRows rows s) = true) : stepRows (filterGroups p rows) s = stepRows rows s := by
  unfold stepRows filterGroups
  rw [List.filter_filter]
  apply List.filter_congr
  intro r _
  by_cases hr : r.step = some s
  · simp only [hr, decide_true, Bool.true_and]
    exact h
  · simp [hr]

theorem mem_stepKeys_filterGroups {p : List Row → Bool} {rows : List Row} {s : Int} :
    s ∈ stepKeys (filterGroups p rows) ↔ (∃ r ∈ rows, r.step = some s) ∧ p (stepRows rows s) = true := by
  rw [mem_stepKeys]
  constructor
  · rintro ⟨r, hr, hs⟩
    obtain ⟨h1, s', h2, h3⟩ := mem_filterGroups.mp hr
    rw [hs] at h2; cases h2
    exact ⟨⟨r, h1, hs⟩, h3⟩
  · rintro ⟨⟨r, hr, hs⟩, hp⟩
    exact ⟨r, mem_filterGroups.mpr ⟨hr, s, hs, hp⟩, hs⟩

/-- the groups of one type, as step index and whole step -/
theorem iterate_eq (b chg : Bool) (rows : List Row) :
    (stepKeys (filterGroups (stepIsChgState chg b) rows)).map
        (stepRows (filterGroups (stepIsChgState chg b) rows)) =
      (stepKeys (filterGroups (stepIsChgState chg b) rows)).map (stepRows rows) := by
  apply List.map_congr_left
  intro s hs
  exact stepRows_filterGroups (mem_stepKeys_filterGroups.mp hs).2

/-! ### averages -/

theorem sumN_map_some (l : List Rat) : sumN (l.map some) = l.sum := by
  induction l with
  | nil => rfl
  | cons a l ih => simp [sumN, ih]

theorem countN_map_some (l : List Rat) : countN (l.map some) = l.length := by
  induction l with
  | nil => rfl
  | cons a l ih => simp [countN, ih]

/-- increments of a list of numbers -/
def incs (prev : Rat) : List Rat → List Rat
  | [] => []
  | v :: vs => (v - prev) :: incs v vs

theorem diffFrom_some (p : Rat) (vs : List Rat) : diffFrom (some p) (vs.map some) = (incs p vs).map some := by
  induction vs generalizing p with
  | nil => rfl
  | cons v vs ih => simp [diffFrom, incs, subN, ih]

theorem length_incs (p : Rat) (vs : List Rat) : (incs p vs).length = vs.length := by
  induction vs generalizing p with
  | nil => rfl
  | cons v vs ih => simp [incs, ih]

/-- the last value of a non-empty list -/
def lastFrom (p : Rat) : List Rat → Rat
  | [] => p
  | v :: vs => lastFrom v vs

theorem sum_incs (p : Rat) (vs : List Rat) : (incs p vs).sum = lastFrom p vs - p := by
  induction vs generalizing p with
  | nil => simp [incs, lastFrom]
  | cons v vs ih => simp only [incs, lastFrom, List.sum_cons, ih]; ring

theorem lastFrom_mem (p : Rat) (vs : List Rat) : lastFrom p vs ∈ p :: vs := by
  induction vs generalizing p with
  | nil => simp [lastFrom]
  | cons v vs ih =>
    have := ih v
    simp only [lastFrom]
    exact List.mem_cons_of_mem _ this

theorem le_lastFrom {p : Rat} {vs : List Rat} (h : (p :: vs).Pairwise (· ≤ ·)) :
    ∀ x ∈ p :: vs, x ≤ lastFrom p vs := by
  induction vs generalizing p with
  | nil => intro x hx; simp at hx; simp [hx, lastFrom]
  | cons v vs ih =>
    have h' := List.pairwise_cons.mp h
    intro x hx
    simp only [lastFrom]
    rcases List.mem_cons.mp hx with rfl | hx
    · exact le_trans (h'.1 v (List.mem_cons_self ..)) (ih h'.2 v (List.mem_cons_self ..))
    · exact ih h'.2 x hx

theorem total_of_mono {p : Rat} {vs : List Rat} (h : (p :: vs).Pairwise (· ≤ ·)) :
    subN (maxN ((p :: vs).map some)) (minN ((p :: vs).map some)) = some (lastFrom p vs - p) := by
  have hne : ∃ v, some v ∈ (p :: vs).map some := ⟨p, by simp⟩
  cases hM : maxN ((p :: vs).map some) with
  | none => exact absurd hne ((maxN_none _).mp hM)
  | some M =>
    cases hm : minN ((p :: vs).map some) with
    | none => exact absurd hne ((minN_none _).mp hm)
    | some m =>
      obtain ⟨a1, a2⟩ := maxN_some _ _ hM
      obtain ⟨b1, b2⟩ := minN_some _ _ hm
      have memM : M ∈ p :: vs := by simpa using a1
      have memm : m ∈ p :: vs := by simpa using b1
      have e1 : M = lastFrom p vs := by
        apply le_antisymm
        · exact le_lastFrom h M memM
        · apply a2; exact List.mem_map_of_mem (lastFrom_mem p vs)
      have e2 : m = p := by
        apply le_antisymm
        · apply b2; simp
        · rcases List.mem_cons.mp memm with rfl | hx
          · exact le_refl _
          · exact (List.pairwise_cons.mp h).1 m hx
      simp [subN, e1, e2]

/-- average increment when no single increment is an outlier -/
theorem avgDelta_mono {p : Rat} {vs : List Rat} (h : (p :: vs).Pairwise (· ≤ ·)) (hne : vs ≠ [])
    (hno : ∀ d ∈ incs p vs, d ≤ 99 / 100 * (lastFrom p vs - p)) :
    avgDelta ((p :: vs).map some) = some ((lastFrom p vs - p) / vs.length) := by
  unfold avgDelta
  simp only [total_of_mono h]
  have e : (diff ((p :: vs).map some)).map (dropOutlier (some (lastFrom p vs - p))) =
      none :: (incs p vs).map some := by
    simp only [List.map_cons, diff, diffFrom_some, dropOutlier, List.map_map]
    congr 1
    apply List.map_congr_left
    intro d hd
    simp only [Function.comp, dropOutlier]
    rw [if_neg]
    rintro ⟨h1, h2⟩
    have hge : 0 ≤ lastFrom p vs - p := by
      have := le_lastFrom h p (List.mem_cons_self ..)
      linarith
    have hpos : 0 < lastFrom p vs - p := lt_of_le_of_ne hge (Ne.symm h1)
    have := hno d hd
    rw [gt_iff_lt, lt_div_iff₀ hpos] at h2
    linarith
  rw [e]
  unfold meanN
  simp only [countN, sumN, sumN_map_some, countN_map_some, sum_incs, length_incs]
  have : vs.length ≠ 0 := by simpa using hne
  simp [this]

theorem avgDelta_const (p : Rat) (n : Nat) (hn : n ≠ 0) :
    avgDelta ((p :: List.replicate n p).map some) = some 0 := by
  have hl : ∀ n, lastFrom p (List.replicate n p) = p := by
    intro n
    induction n with
    | zero => rfl
    | succ n ih => simp only [List.replicate_succ, lastFrom, ih]
  have hi : ∀ n, ∀ d ∈ incs p (List.replicate n p), d = 0 := by
    intro n
    induction n with
    | zero => simp [incs]
    | succ n ih =>
      intro d hd
      simp only [List.replicate_succ, incs, List.mem_cons] at hd
      rcases hd with rfl | hd
      · ring
      · exact ih d hd
  rw [avgDelta_mono]
  · simp [hl]
  · rw [List.pairwise_cons]
    refine ⟨fun x hx => by rw [List.eq_of_mem_replicate hx], ?_⟩
    rw [List.pairwise_replicate]
    right; exact le_refl _
  · simp [hn]
  · intro d hd; rw [hi n d hd, hl]; simp

theorem avgDelta_flat {vals : List Rat} (p : Rat) (h : ∀ v ∈ vals, v = p) (hlen : 2 ≤ vals.length) :
    avgDelta (vals.map some) = some 0 := by
  have := List.eq_replicate_of_mem h
  match vals, hlen with
  | a :: b :: vs, _ =>
    have ha : a = p := h a (by simp)
    have e : a :: b :: vs = p :: List.replicate (vs.length + 1) p := by
      rw [this]; simp [List.replicate_succ]
    rw [e]; exact avgDelta_const p _ (by simp)

end Beep.Steps
