import Verif.Proof.Splitter
import Verif.Spec.LinearModel
/-
Lemmas about linear model experiments.
-/
namespace Beep.Proof.LinearModel
open Beep Pandas Text Table LinearModel Spec.Splitter Spec.LinearModel Proof.Table Proof.Splitter

variable {H : Type}

/-- columns after the threshold -/
def kept (a : Args H) (fm : Table) : Table := (named a.homogenize fm).dropCols a.sampleThresh

/-- the cleaned features -/
def cleaned (a : Args H) (fm : Table) : Table :=
  let t := (kept a fm).dropRows (a.sampleThresh * (kept a fm).cols.length)
  { t with cols := t.cols.map (fillCol a.impute t.rows) }

def hasTargets (a : Args H) (tm : Table) (r : Str) : Bool :=
  ((named a.homogenize tm).select a.targets).cols.all (fun c => (c.cell r).isSome)

theorem construct_ok {env : Env H} {a : Args H} {fm tm : Table} {e : Exp H}
    (h : construct env a fm tm = .ok e) :
    e.featureMatrix = fm ∧ e.targetMatrix = tm ∧ e.args = a ∧ e.model = none ∧
    e.featureLabels = (cleaned a fm).names ∧ e.scaler = fit env (cleaned a fm) ∧
    e.X = (cleaned a fm).loc e.X.rows ∧
    e.X.rows = (cleaned a fm).rows.filter (hasTargets a tm) ∧
    e.y = ((named a.homogenize tm).select a.targets).loc e.X.rows ∧
    2 ≤ e.X.rows.length ∧ 1 ≤ (cleaned a fm).cols.length ∧
    (∀ t ∈ a.targets, t ∈ (named a.homogenize tm).names) ∧ a.targets ≠ [] ∧ a.impute ≠ .other ∧
    (a.dropNanTargets = true ∨ ∀ r ∈ (cleaned a fm).rows, hasTargets a tm r = true) := by
  unfold construct at h
  split at h
  · cases h
  split at h
  · cases h
  rename_i ht0
  split at h
  · cases h
  split at h
  · cases h
  rename_i Z hZ
  split at h
  · cases h
  rename_i y hy
  split at h
  · cases h
  cases h
  unfold cleanX at hZ
  dsimp only at hZ
  split at hZ
  · cases hZ
  rename_i W hW
  have hoth : a.impute ≠ .other := by
    intro e; rw [e] at hW; cases hW
  have hW' : W = cleaned a fm := impute_ok hW
  clear hW
  subst hW'
  split at hZ
  · cases hZ
  rename_i hsz
  cases hZ
  simp only [not_or, not_lt] at hsz
  unfold cleanY at hy
  split at hy
  · cases hy
  rename_i htar
  split at hy
  · cases hy
  have htar' : ∀ t ∈ a.targets, t ∈ (named a.homogenize tm).names := by
    intro t ht
    by_contra hn
    apply htar
    rw [List.any_eq_true]
    refine ⟨t, ht, ?_⟩
    unfold named at hn
    unfold homogenized
    simpa using hn
  have hne : a.targets ≠ [] := by intro e; rw [e] at ht0; simp at ht0
  dsimp only at hy
  split at hy
  · rename_i hall
    have hall' : ∀ r ∈ (cleaned a fm).rows, hasTargets a tm r = true := List.all_eq_true.mp hall
    cases hy
    refine ⟨rfl, rfl, rfl, rfl, rfl, rfl, rfl, ?_, rfl, hsz.1, hsz.2, htar', hne, hoth, Or.inr hall'⟩
    exact (List.filter_eq_self.mpr hall').symm
  · split at hy
    · rename_i hd
      split at hy
      · cases hy
      rename_i hl
      cases hy
      exact ⟨rfl, rfl, rfl, rfl, rfl, rfl, rfl, rfl, rfl, not_lt.mp hl, hsz.2, htar', hne, hoth, Or.inl hd⟩
    · cases hy

theorem trainOn_ok {env : Env H} {e e' : Exp H} {X y : Table} (h : trainOn env e X y = .ok e') :
    ∃ m, e' = { e with scaler := fit env X, model := some m } ∧
      ∀ r ∈ transform (fit env X) X, r.all Option.isSome = true := by
  unfold trainOn at h
  simp only [bind, Except.bind] at h
  split at h
  · cases h
  rename_i xs hxs
  split at h
  · cases h
  split at h
  · cases h
  rename_i m hm
  cases h
  refine ⟨m, rfl, ?_⟩
  unfold finite at hxs
  split at hxs
  · rename_i hall
    exact List.all_eq_true.mp hall
  · cases hxs

theorem cleaned_names (a : Args H) (fm : Table) : (cleaned a fm).names = (kept a fm).names := by
  unfold cleaned Table.names Table.dropRows
  simp only [List.map_map]
  apply List.map_congr_left
  intro c _
  rfl

theorem mem_zip_left {α β : Type} (l : List α) (k : List β) (h : l.length = k.length) (a : α) (ha : a ∈ l) :
    ∃ b, (a, b) ∈ l.zip k := by
  induction l generalizing k with
  | nil => cases ha
  | cons x l ih =>
    cases k with
    | nil => simp at h
    | cons y k =>
      rcases List.mem_cons.mp ha with rfl | ha
      · exact ⟨y, by simp⟩
      · obtain ⟨b, hb⟩ := ih k (by simpa using h) ha
        exact ⟨b, by simp [hb]⟩

theorem mem_zip_right {α β : Type} (l : List α) (k : List β) (h : l.length = k.length) (b : β) (hb : b ∈ k) :
    ∃ a, (a, b) ∈ l.zip k := by
  induction l generalizing k with
  | nil => cases k with
    | nil => cases hb
    | cons => simp at h
  | cons x l ih =>
    cases k with
    | nil => simp at h
    | cons y k =>
      rcases List.mem_cons.mp hb with rfl | hb
      · exact ⟨x, by simp⟩
      · obtain ⟨a, ha⟩ := ih k (by simpa using h) hb
        exact ⟨a, by simp [ha]⟩

/-- a trained experiment has a usable scaler -/
theorem trained_scaler {env : Env H} {e : Exp H} (h : Trained env e) :
    e.scaler.length = e.featureLabels.length ∧ (∀ p ∈ e.scaler, p.isSome = true) ∧
    e.featureLabels ≠ [] ∧ (∃ m, e.model = some m) ∧ e.args.impute ≠ .other := by
  obtain ⟨a, fm, tm, e0, hc, ht⟩ := h
  obtain ⟨-, -, harg, -, hl, -, hX, -, -, h2, h1, -, -, ho, -⟩ := construct_ok hc
  have hcols : e0.X.cols = (cleaned a fm).cols := by rw [hX]; rfl
  have key : ∀ (X y : Table), X.cols = e0.X.cols → X.rows ≠ [] → trainOn env e0 X y = .ok e →
      e.scaler.length = e.featureLabels.length ∧ (∀ p ∈ e.scaler, p.isSome = true) ∧
      e.featureLabels ≠ [] ∧ (∃ m, e.model = some m) ∧ e.args.impute ≠ .other := by
    intro X y hXc hXr htr
    obtain ⟨m, rfl, hall⟩ := trainOn_ok htr
    have hlen : (fit env X).length = X.cols.length := by unfold fit; simp
    refine ⟨?_, ?_, ?_, ⟨m, rfl⟩, ?_⟩
    · show (fit env X).length = e0.featureLabels.length
      rw [hlen, hXc, hcols, hl]
      unfold Table.names; simp
    · show ∀ p ∈ fit env X, p.isSome = true
      intro p hp
      obtain ⟨c, hpc⟩ := mem_zip_left _ _ hlen p hp
      obtain ⟨r, hr⟩ := List.exists_mem_of_ne_nil _ hXr
      have := hall _ (List.mem_map.mpr ⟨r, hr, rfl⟩)
      rw [List.all_eq_true] at this
      have := this (scaleCell p (c.cell r)) (List.mem_map.mpr ⟨(p, c), hpc, rfl⟩)
      unfold scaleCell at this
      split at this
      · rfl
      · cases this
    · show e0.featureLabels ≠ []
      rw [hl]
      unfold Table.names
      intro e
      rw [List.map_eq_nil_iff] at e
      rw [e] at h1
      simp at h1
    · show e0.args.impute ≠ .other
      rw [harg]; exact ho
  rcases ht with ht | ⟨picked, hp, -, ht⟩
  · refine key e0.X e0.y rfl ?_ ht
    intro e; rw [e] at h2; simp at h2
  · exact key (e0.X.loc picked) _ rfl hp ht

end Beep.Proof.LinearModel
