import Verif.Spec.TrainCmd
import Verif.Props.Prediction
/-
Lemmas about scores and about the commands `beep train` and `beep predict`.
-/
namespace Beep.Proof.TrainCmd
open Beep Table LinearModel TrainCmd Spec.Stats Spec.LinearModel Spec.Splitter Spec.Prediction Spec.TrainCmd
open Proof.LinearModel Props.LinearModel Props.Prediction

/-! ### scores -/

theorem absR_abs (x : Rat) : Pandas.absR x = |x| := by
  unfold Pandas.absR
  split
  · rw [abs_of_neg (by assumption)]
  · rw [abs_of_nonneg (by linarith)]

theorem zipWith_pairs {α : Type} (f : Rat → Rat → α) (y p : List Rat) :
    List.zipWith f y p = (y.zip p).map (fun q => f q.1 q.2) := by
  rw [List.zip_eq_zipWith, List.map_zipWith]

theorem isMean_div {l : List Rat} (h : l ≠ []) : IsMean l (l.sum / (l.length : Rat)) := by
  refine ⟨h, ?_⟩
  have : (l.length : Rat) ≠ 0 := by
    have := List.length_pos_iff.mpr h
    exact_mod_cast Nat.pos_iff_ne_zero.mp this
  field_simp

theorem foldl_max (l : List Rat) (a : Rat) :
    a ≤ l.foldl max a ∧ (∀ x ∈ l, x ≤ l.foldl max a) ∧ (l.foldl max a = a ∨ l.foldl max a ∈ l) := by
  induction l generalizing a with
  | nil => exact ⟨le_refl _, by simp, Or.inl rfl⟩
  | cons b l ih =>
    obtain ⟨h1, h2, h3⟩ := ih (max a b)
    rw [List.foldl_cons]
    refine ⟨le_trans (le_max_left a b) h1, ?_, ?_⟩
    · intro x hx
      rcases List.mem_cons.mp hx with rfl | hx
      · exact le_trans (le_max_right a x) h1
      · exact h2 x hx
    · rcases h3 with h3 | h3
      · rcases max_choice a b with e | e
        · exact Or.inl (h3.trans e)
        · exact Or.inr (by rw [h3, e]; exact List.mem_cons_self)
      · exact Or.inr (List.mem_cons_of_mem _ h3)

theorem largest {l : List Rat} (h : l ≠ []) (h0 : ∀ x ∈ l, 0 ≤ x) : IsLargest l (l.foldl max 0) := by
  obtain ⟨h1, h2, h3⟩ := foldl_max l 0
  refine ⟨?_, h2⟩
  rcases h3 with h3 | h3
  · obtain ⟨x, hx⟩ := List.exists_mem_of_ne_nil _ h
    have : x = 0 := le_antisymm (by rw [← h3]; exact h2 x hx) (h0 x hx)
    rw [h3, ← this]; exact hx
  · exact h3

theorem scores_ok {sqrt : Rat → Rat} {y p : List Rat} {s : Scores} (h : scores sqrt y p = .ok s) :
    y.length = p.length ∧ y ≠ [] ∧ Measures sqrt (y.zip p) s := by
  unfold scores at h
  split at h
  · cases h
  rename_i hc
  rw [not_or, not_not] at hc
  obtain ⟨hl, h0⟩ := hc
  have hne : y ≠ [] := fun e => h0 (by rw [e]; rfl)
  cases h
  have hz : y.zip p ≠ [] := by
    intro e
    have := congrArg List.length e
    rw [List.length_zip, ← hl, Nat.min_self] at this
    exact h0 this
  have hlen : (y.zip p).length = y.length := by rw [List.length_zip, ← hl, Nat.min_self]
  have hmap : ∀ {f : Rat × Rat → Rat}, (y.zip p).map f ≠ [] := fun e => hz (List.map_eq_nil_iff.mp e)
  have hfst : (y.zip p).map Prod.fst = y := List.map_fst_zip (le_of_eq hl)
  refine ⟨hl, hne, ⟨?_, ?_, ?_, ?_⟩⟩
  · refine ⟨meanSquared y p, ?_, rfl⟩
    unfold meanSquared
    rw [zipWith_pairs]
    have := isMean_div (hmap (f := fun q => (q.1 - q.2) * (q.1 - q.2)))
    rw [List.length_map, hlen] at this
    exact this
  · show IsMean _ (meanAbsolute y p)
    unfold meanAbsolute
    rw [zipWith_pairs]
    simp only [absR_abs]
    have := isMean_div (hmap (f := fun q => |q.1 - q.2|))
    rw [List.length_map, hlen] at this
    exact this
  · show IsLargest _ (maxError y p)
    unfold maxError
    rw [zipWith_pairs]
    simp only [absR_abs]
    apply largest hmap
    intro x hx
    obtain ⟨q, -, rfl⟩ := List.mem_map.mp hx
    exact abs_nonneg _
  · intro h2
    rw [hlen] at h2
    rw [hfst]
    have hmu := isMean_div hne
    have hv := isMean_div (l := y.map (fun x => (x - y.sum / (y.length : Rat)) * (x - y.sum / (y.length : Rat))))
      (fun e => hne (List.map_eq_nil_iff.mp e))
    have hm := isMean_div (hmap (f := fun q => (q.1 - q.2) * (q.1 - q.2)))
    rw [List.length_map] at hv
    rw [List.length_map, hlen] at hm
    have hn : (y.length : Rat) ≠ 0 := by exact_mod_cast h0
    refine ⟨_, _, _,
      (if (y.map (fun x => (x - y.sum / (y.length : Rat)) * (x - y.sum / (y.length : Rat)))).sum = 0 then
        (if ((y.zip p).map (fun q => (q.1 - q.2) * (q.1 - q.2))).sum = 0 then 1 else 0)
        else 1 - ((y.zip p).map (fun q => (q.1 - q.2) * (q.1 - q.2))).sum /
          (y.map (fun x => (x - y.sum / (y.length : Rat)) * (x - y.sum / (y.length : Rat)))).sum),
      hmu, hv, hm, ?_, ?_⟩
    · show r2Score y p = _
      unfold r2Score
      simp only [zipWith_pairs]
      rw [if_neg (by omega)]
      split
      · split <;> rfl
      · rfl
    · refine ⟨?_, ?_⟩
      · intro hv0
        rw [if_neg (fun e => hv0 (by rw [e, zero_div])), div_div_div_cancel_right₀ hn]
      · intro hv0
        rw [if_pos ((div_eq_zero_iff.mp hv0).resolve_right hn)]
        refine ⟨fun hm0 => if_pos ((div_eq_zero_iff.mp hm0).resolve_right hn),
          fun hm0 => if_neg (fun e => hm0 (by rw [e, zero_div]))⟩

theorem mapM_get {α β : Type} {f : α → Except Err β} :
    ∀ {l : List α} {out : List β}, l.mapM f = .ok out →
      out.length = l.length ∧ ∀ (i : Nat) (a : α), l[i]? = some a → ∃ b, out[i]? = some b ∧ f a = .ok b := by
  intro l
  induction l with
  | nil =>
    intro out h
    rw [List.mapM_nil] at h
    cases h
    exact ⟨rfl, fun i a hi => by simp at hi⟩
  | cons x l ih =>
    intro out h
    rw [List.mapM_cons] at h
    simp only [bind, Except.bind] at h
    split at h
    · cases h
    rename_i b hb
    split at h
    · cases h
    rename_i bs hbs
    cases h
    obtain ⟨h1, h2⟩ := ih hbs
    refine ⟨by simp [h1], ?_⟩
    intro i a hi
    cases i with
    | zero =>
      simp only [List.getElem?_cons_zero, Option.some.injEq] at hi
      subst hi
      exact ⟨b, rfl, hb⟩
    | succ i =>
      simp only [List.getElem?_cons_succ] at hi ⊢
      exact h2 i a hi

/-- a value for every element: the list of values -/
theorem filterMap_all {α β : Type} (f : α → Option β) :
    ∀ l : List α, (l.filterMap f).length = l.length → List.Forall₂ (fun a b => f a = some b) l (l.filterMap f) := by
  intro l
  induction l with
  | nil => intro _; exact .nil
  | cons a l ih =>
    intro h
    cases ha : f a with
    | none =>
      rw [List.filterMap_cons_none ha] at h
      have := List.length_filterMap_le f l
      rw [List.length_cons] at h
      omega
    | some b =>
      rw [List.filterMap_cons_some ha] at h ⊢
      exact .cons ha (ih (by simpa using h))

theorem forall₂_zip {α β γ δ : Type} {R : α → γ → Prop} {S : β → δ → Prop} :
    ∀ {as : List α} {bs : List β} {cs : List γ} {ds : List δ}, List.Forall₂ R as cs → List.Forall₂ S bs ds →
      as.length = bs.length → List.Forall₂ (fun p q => R p.1 q.1 ∧ S p.2 q.2) (as.zip bs) (cs.zip ds) := by
  intro as bs cs ds h1
  induction h1 generalizing bs ds with
  | nil => intro h2 hl; cases h2 with
    | nil => exact .nil
    | cons _ _ => cases hl
  | cons hr _ ih => intro h2 hl; cases h2 with
    | nil => cases hl
    | cons hs ht => exact .cons ⟨hr, hs⟩ (ih ht (by simpa using hl))

/-- the scores of a table of true values against predictions -/
theorem scoreTable_ok {sqrt : Rat → Rat} {y : Table} {pred : List (List Rat)} {out : List (Str × Scores)}
    (h : scoreTable sqrt y pred = .ok out) (hp : pred.length ≤ y.rows.length) :
    out.length = y.cols.length ∧ ∀ (j : Nat) (c : Col), y.cols[j]? = some c → pred.length = y.rows.length ∧
      ∃ s pairs, out[j]? = some (c.name, s) ∧ Measures sqrt pairs s ∧
        List.Forall₂ (fun rp q => c.cell rp.1 = some q.1 ∧ rp.2[j]? = some q.2) (y.rows.zip pred) pairs := by
  unfold scoreTable at h
  obtain ⟨h1, h2⟩ := mapM_get h
  rw [List.length_zipIdx] at h1
  refine ⟨h1, ?_⟩
  intro j c hj
  obtain ⟨b, hb, hf⟩ := h2 j (c, j) (by rw [List.getElem?_zipIdx, hj]; simp)
  simp only at hf
  split at hf
  · rename_i hall
    split at hf
    · rename_i s hs
      cases hf
      obtain ⟨hl, hne, hm⟩ := scores_ok hs
      have hfa := forall₂_all y.rows c.cell hall
      have hly := hfa.length_eq
      have hle := List.length_filterMap_le (fun l : List Rat => l[j]?) pred
      have hpl : pred.length = y.rows.length := by omega
      have hfp := filterMap_all (fun l : List Rat => l[j]?) pred (by omega)
      exact ⟨hpl, s, _, hb, hm, forall₂_zip hfa hfp (by omega)⟩
    · cases hf
  · cases hf

/-- the rows predicted are among those of the frame, in order -/
theorem predict_sub {H : Type} {e : Exp H} {X : Table} {out : List (Str × List Rat)} {d : List Str} {hom : Option Bool}
    (h : (predict e X hom).2 = .ok (out, d)) : (out.map Prod.fst).Sublist X.rows := by
  unfold predict at h
  split at h
  · cases h
  rename_i m _
  have hrows : (if hom.getD e.args.homogenize then X.rename stripLast else X).rows = X.rows := by
    split <;> rfl
  simp only at h
  revert hrows h
  generalize (if hom.getD e.args.homogenize then X.rename stripLast else X) = Y
  intro h hrows
  rw [← hrows]
  unfold predictFrame at h
  split at h
  · cases h
  simp only [bind, Except.bind] at h
  split at h
  · cases h
  rename_i Z hZ
  split at h
  · cases h
  split at h
  · cases h
  rename_i xs hxs
  cases h
  have hZ' := Proof.Table.impute_ok hZ
  obtain ⟨-, rfl⟩ := finite_ok hxs
  rw [List.map_fst_zip (by simp [transform])]
  rw [hZ']
  exact List.filter_sublist

end Beep.Proof.TrainCmd
