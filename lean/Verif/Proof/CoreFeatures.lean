import Verif.Proof.Base
import Verif.Proof.Py
import Verif.Proof.Pandas
import Verif.Spec.CoreFeatures
import Mathlib.Data.List.Perm.Basic
import Mathlib.Data.List.Forall2
namespace Beep.Proof.CoreFeatures
open Beep Pandas CoreFeatures Spec.CoreFeatures

theorem subN_minus (x y : Option Rat) : Minus x y (subN x y) := by
  constructor
  · rintro a b rfl rfl; rfl
  · rintro (rfl | rfl)
    · cases y <;> rfl
    · cases x <;> rfl

theorem minus_unique {x y z : Option Rat} (h : Minus x y z) : z = subN x y := by
  cases x with
  | none => rw [h.2 (Or.inl rfl)]; cases y <;> rfl
  | some a => cases y with
    | none => rw [h.2 (Or.inr rfl)]; rfl
    | some b => rw [h.1 a b rfl rfl]; rfl

/-- equal lengths: the model computes the difference -/
theorem difference_iff (a b d : List (Option Rat)) (hl : a.length = b.length) :
    Difference a b d ↔ d = List.zipWith subN a b := by
  constructor
  · rintro ⟨-, hd, h⟩
    apply List.ext_getElem?
    intro i
    by_cases hi : i < a.length
    · have hb : i < b.length := by omega
      have hdi : i < d.length := by omega
      rw [List.getElem?_zipWith, List.getElem?_eq_getElem hi, List.getElem?_eq_getElem hb, List.getElem?_eq_getElem hdi]
      simp only [Option.some.injEq]
      exact minus_unique (h i _ _ _ (List.getElem?_eq_getElem hi) (List.getElem?_eq_getElem hb) (List.getElem?_eq_getElem hdi))
    · rw [List.getElem?_eq_none (by omega), List.getElem?_eq_none (by simp; omega)]
  · rintro rfl
    refine ⟨hl, by simp [hl], ?_⟩
    intro i x y z hx hy hz
    rw [List.getElem?_zipWith, hx, hy] at hz
    simp only [Option.some.injEq] at hz
    subst hz
    exact subN_minus x y

theorem minusArr_of_difference {a b d : List (Option Rat)} (h : Difference a b d) : minusArr a b = .ok d := by
  unfold minusArr
  rw [if_pos h.1, (difference_iff a b d h.1).1 h]

theorem summaryStatistics_ok {stats : List String} {arr : List Rat} {vs : List Val}
    (h : summaryStatistics stats arr = .ok vs) :
    (∀ s ∈ stats, s ∈ supported) ∧ ("min" ∈ stats → arr ≠ []) ∧
      vs = (supported.filter (fun s => stats.contains s)).map (fun s => .log s (arr.map some)) := by
  unfold summaryStatistics at h
  split_ifs at h with h1 h2
  refine ⟨?_, ?_, (Except.ok.inj h).symm⟩
  · intro s hs
    by_contra hc
    apply h1
    rw [List.any_eq_true]
    exact ⟨s, hs, by simpa using hc⟩
  · intro hm ha
    apply h2
    simp [hm, ha]

theorem filter_full {stats : List String} (hp : stats.Perm supported) :
    supported.filter (fun s => stats.contains s) = supported := by
  rw [List.filter_eq_self]
  intro s hs
  simpa using hp.mem_iff.2 hs

/-- a block, when all the statistics are asked for -/
theorem block_full {stats : List String} (hp : stats.Perm supported) {a b : List (Option Rat)} {vs : List Val}
    (h : block stats a b = .ok vs) :
    ∃ d, minusArr a b = .ok d ∧ Spec.Stats.present d ≠ [] ∧ vs = supported.map (fun s => logOf s d) := by
  unfold block at h
  split at h
  · cases h
  rename_i d hd
  split at h
  · cases h
  rename_i ws hw
  obtain ⟨-, h2, h3⟩ := summaryStatistics_ok hw
  rw [filter_full hp] at h3
  refine ⟨d, hd, h2 (hp.mem_iff.2 (by decide)), ?_⟩
  subst h3
  exact (Except.ok.inj h).symm

theorem block_accepts {stats : List String} (hp : stats.Perm supported) {a b d : List (Option Rat)}
    (hd : minusArr a b = .ok d) (hne : Spec.Stats.present d ≠ []) :
    block stats a b = .ok (supported.map (fun s => logOf s d)) := by
  unfold block
  rw [hd]
  have : summaryStatistics stats (d.filterMap id) = .ok (supported.map (fun s => logOf s d)) := by
    unfold summaryStatistics
    rw [if_neg, if_neg, filter_full hp]
    · rfl
    · have : (d.filterMap id).isEmpty = false := by
        cases hx : d.filterMap id with
        | nil => exact absurd hx hne
        | cons _ _ => rfl
      rw [this, Bool.and_false]
      decide
    · rw [List.any_eq_true]
      rintro ⟨s, hs, hc⟩
      have := hp.mem_iff.1 hs
      simp [this] at hc
  simp only [this]
  rfl

/-- the values of several blocks -/
theorem blocks_full {stats : List String} (hp : stats.Perm supported) :
    ∀ (ps : List (List (Option Rat) × List (Option Rat))) {vs : List Val}, blocks stats ps = .ok vs →
    ∃ ds : List (List (Option Rat)), List.Forall₂ (fun p d => minusArr p.1 p.2 = .ok d ∧ Spec.Stats.present d ≠ []) ps ds ∧
      vs = ds.flatMap (fun d => supported.map (fun s => logOf s d))
  | [], vs, h => ⟨[], .nil, (Except.ok.inj h).symm⟩
  | p :: ps, vs, h => by
    unfold blocks at h
    split at h
    · cases h
    rename_i v1 hv
    split at h
    · cases h
    rename_i ws hw
    obtain ⟨d, h1, h2, h3⟩ := block_full hp hv
    obtain ⟨ds, h4, h5⟩ := blocks_full hp ps hw
    refine ⟨d :: ds, .cons ⟨h1, h2⟩ h4, ?_⟩
    rw [← Except.ok.inj h, h3, h5]
    rfl

theorem blocks_accepts {stats : List String} (hp : stats.Perm supported) :
    ∀ (ps : List (List (Option Rat) × List (Option Rat))),
    (∀ p ∈ ps, ∃ d, minusArr p.1 p.2 = .ok d ∧ Spec.Stats.present d ≠ []) → ∃ vs, blocks stats ps = .ok vs
  | [], _ => ⟨[], rfl⟩
  | p :: ps, h => by
    obtain ⟨d, h1, h2⟩ := h p (by simp)
    obtain ⟨ws, hw⟩ := blocks_accepts hp ps (fun q hq => h q (by simp [hq]))
    refine ⟨supported.map (fun s => logOf s d) ++ ws, ?_⟩
    unfold blocks
    rw [block_accepts hp h1 h2, hw]

theorem fill7_length {vs ws : List Val} (h : fill7 vs = .ok ws) : ws.length = 7 ∧ (vs.length = 7 ∨ vs.length = 1) := by
  unfold fill7 at h
  split at h
  · cases h; simp
  · split_ifs at h with h1
    cases h
    exact ⟨h1, Or.inl h1⟩

theorem block_length {stats : List String} {a b : List (Option Rat)} {vs : List Val} (h : block stats a b = .ok vs) :
    vs.length = 7 ∧ (∀ s ∈ stats, s ∈ supported) ∧
      ((supported.filter (fun s => stats.contains s)).length = 7 ∨ (supported.filter (fun s => stats.contains s)).length = 1) := by
  unfold block at h
  split at h
  · cases h
  split at h
  · cases h
  rename_i ws hw
  obtain ⟨h1, h2, h3⟩ := summaryStatistics_ok hw
  obtain ⟨h4, h5⟩ := fill7_length h
  refine ⟨h4, h1, ?_⟩
  rw [h3, List.length_map] at h5
  exact h5

theorem blocks_length {stats : List String} : ∀ (ps : List (List (Option Rat) × List (Option Rat))) {vs : List Val},
    blocks stats ps = .ok vs → vs.length = 7 * ps.length
  | [], vs, h => by cases h; rfl
  | p :: ps, vs, h => by
    unfold blocks at h
    split at h
    · cases h
    rename_i v1 hv
    split at h
    · cases h
    rename_i ws hw
    rw [← Except.ok.inj h, List.length_append, (block_length hv).1, blocks_length ps hw, List.length_cons]
    omega

/-- statistics without repetition must be all of them -/
theorem perm_of_blocks {stats : List String} (hn : stats.Nodup) {p : List (Option Rat) × List (Option Rat)}
    {ps : List (List (Option Rat) × List (Option Rat))} {vs : List Val} (h : blocks stats (p :: ps) = .ok vs)
    (h7 : 7 ≤ stats.length) : stats.Perm supported := by
  unfold blocks at h
  split at h
  · cases h
  rename_i v1 hv
  obtain ⟨-, h1, -⟩ := block_length hv
  exact (hn.subperm (fun s hs => h1 s hs)).perm_of_length_le h7

theorem names_length (qs stats : List String) : (names qs stats).length = qs.length * stats.length := by
  induction qs with
  | nil => simp [names]
  | cons q qs ih =>
    have : names (q :: qs) stats = stats.map (fun y => y ++ "_" ++ q) ++ names qs stats := rfl
    rw [this, List.length_append, ih, List.length_map, List.length_cons, Nat.add_mul]
    omega

theorem zip_flatMap {α β γ : Type} (ds : List β) (f : α → List String) (g : β → List γ) (as : List α)
    (hl : as.length = ds.length) (hfg : ∀ a ∈ as, ∀ b ∈ ds, (f a).length = (g b).length) :
    (as.flatMap f).zip (ds.flatMap g) = (as.zip ds).flatMap (fun p => (f p.1).zip (g p.2)) := by
  induction as generalizing ds with
  | nil => cases ds <;> simp_all
  | cons a as ih =>
    cases ds with
    | nil => simp at hl
    | cons d ds =>
      simp only [List.flatMap_cons, List.zip_cons_cons]
      rw [List.zip_append (hfg a (by simp) d (by simp)), ih ds (by simpa using hl)]
      intro x hx y hy
      exact hfg x (by simp [hx]) y (by simp [hy])

/-- an entry of the named values -/
theorem mem_named {stats : List String} (hp : stats.Perm supported) (qs : List String) (ds : List (List (Option Rat)))
    (hl : qs.length = ds.length) {i j : Nat} {q : String} {d : List (Option Rat)} {s stat : String}
    (hq : qs[i]? = some q) (hd : ds[i]? = some d) (hs : stats[j]? = some s) (ht : supported[j]? = some stat) :
    (s ++ "_" ++ q, logOf stat d) ∈ (names qs stats).zip (ds.flatMap (fun d => supported.map (fun s => logOf s d))) := by
  unfold names
  rw [zip_flatMap ds _ _ qs hl (by intros; simp [hp.length_eq])]
  rw [List.mem_flatMap]
  refine ⟨(q, d), ?_, ?_⟩
  · rw [List.mem_iff_getElem?]
    exact ⟨i, by rw [List.getElem?_zip_eq_some]; exact ⟨hq, hd⟩⟩
  · rw [List.mem_iff_getElem?]
    refine ⟨j, ?_⟩
    rw [List.getElem?_zip_eq_some]
    simp [hs, ht]

theorem names_perm {stats stats' : List String} (hp : stats.Perm stats') (qs : List String) :
    (names qs stats).Perm (names qs stats') := by
  unfold names
  induction qs with
  | nil => exact .refl _
  | cons q qs ih => simp only [List.flatMap_cons]; exact (hp.map _).append ih

end Beep.Proof.CoreFeatures
