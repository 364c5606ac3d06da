import Verif.Spec.Growth
import Verif.Proof.Interp
import Verif.Props.SummaryFull
/-
Lemmas for C153.
-/
namespace Beep.Growth
open Beep Beep.Pandas Beep.Spec.Growth

theorem filter_split (c : Int) : ∀ {l : List Int}, l.Pairwise (· < ·) →
    l = l.filter (fun x => decide (x ≤ c)) ++ l.filter (fun x => decide (c < x))
  | [], _ => rfl
  | a :: l, h => by
    rw [List.pairwise_cons] at h
    by_cases ha : a ≤ c
    · rw [List.filter_cons_of_pos (by simpa using ha),
        List.filter_cons_of_neg (by simpa using ha), List.cons_append, ← filter_split c h.2]
    · have hn : (a :: l).filter (fun x => decide (x ≤ c)) = [] := by
        rw [List.filter_eq_nil_iff]
        intro x hx
        rcases List.mem_cons.mp hx with e | e
        · subst e; simpa using ha
        · have := h.1 x e
          simp only [decide_eq_true_eq]; omega
      have hp : (a :: l).filter (fun x => decide (c < x)) = a :: l := by
        rw [List.filter_eq_self]
        intro x hx
        rcases List.mem_cons.mp hx with e | e
        · subst e; simp only [decide_eq_true_eq]; omega
        · have := h.1 x e
          simp only [decide_eq_true_eq]; omega
      rw [hn, hp, List.nil_append]

theorem sorted_ext {a b : List Int} (ha : a.Pairwise (· < ·)) (hb : b.Pairwise (· < ·))
    (h : ∀ x, x ∈ a ↔ x ∈ b) : a = b := by
  have hp : a.Perm b := by
    rw [List.perm_ext_iff_of_nodup (ha.imp (fun h => ne_of_lt h)) (hb.imp (fun h => ne_of_lt h))]
    exact h
  exact hp.eq_of_pairwise (fun x y _ _ h1 h2 => absurd h1 (lt_asymm h2)) ha hb

/-- the part of the sorted cycles up to a finished cycle -/
theorem groupKeys_upto {a b : List Int} {c : Int} (hf : Finished b c) :
    (groupKeys (a ++ b)).filter (fun x => decide (x ≤ c)) = (groupKeys a).filter (fun x => decide (x ≤ c)) := by
  apply sorted_ext ((sorted_groupKeys _).filter _) ((sorted_groupKeys _).filter _)
  intro x
  simp only [List.mem_filter, mem_groupKeys, List.mem_append, decide_eq_true_eq]
  constructor
  · rintro ⟨h | h, hx⟩
    · exact ⟨h, hx⟩
    · have := hf x h; omega
  · rintro ⟨h, hx⟩
    exact ⟨Or.inl h, hx⟩

theorem cycleRows_more {raw more : List Summary.Raw} {c : Int} (hf : Finished (more.map Summary.Raw.cycle) c) :
    Summary.cycleRows (raw ++ more) c = Summary.cycleRows raw c := by
  unfold Summary.cycleRows
  rw [List.filter_append]
  have : more.filter (fun r => decide (r.cycle = c)) = [] := by
    rw [List.filter_eq_nil_iff]
    intro r hr
    have := hf r.cycle (List.mem_map.mpr ⟨r, hr, rfl⟩)
    simp only [decide_eq_true_eq]; omega
  rw [this, List.append_nil]

theorem finished_le {l : List Int} {c k : Int} (h : Finished l c) (hk : k ≤ c) : Finished l k :=
  fun b hb => lt_of_le_of_lt hk (h b hb)

theorem kept_upto {diag : Option (List Int)} {raw more : List Summary.Raw} {c : Int}
    (hf : Finished (more.map Summary.Raw.cycle) c) :
    (Summary.kept diag (raw ++ more)).filter (fun x => decide (x ≤ c)) =
      (Summary.kept diag raw).filter (fun x => decide (x ≤ c)) := by
  have h1 := Summary.kept_regular diag (raw ++ more)
  have h2 := Summary.kept_regular diag raw
  apply sorted_ext (h1.1.filter _) (h2.1.filter _)
  intro x
  simp only [List.mem_filter, h1.2, h2.2, decide_eq_true_eq, List.mem_append]
  constructor
  · rintro ⟨⟨⟨r, hr | hr, e⟩, hd⟩, hx⟩
    · exact ⟨⟨⟨r, hr, e⟩, hd⟩, hx⟩
    · have := hf r.cycle (List.mem_map.mpr ⟨r, hr, rfl⟩); omega
  · rintro ⟨⟨⟨r, hr, e⟩, hd⟩, hx⟩
    exact ⟨⟨⟨r, Or.inl hr, e⟩, hd⟩, hx⟩

theorem withThroughput_append (x y : Rat) (l m : List Summary.Row) :
    ∃ x' y', Summary.withThroughput x y (l ++ m) = Summary.withThroughput x y l ++ Summary.withThroughput x' y' m := by
  induction l generalizing x y with
  | nil => exact ⟨x, y, rfl⟩
  | cons r l ih =>
    obtain ⟨x', y', e⟩ := ih (Summary.addN x r.chgCap) (Summary.addN y r.chgEn)
    exact ⟨x', y', by simp only [List.cons_append, Summary.withThroughput, e]⟩

/-- the rows of the table before the durations are attached -/
def bare (p : Summary.Params) (diag : Option (List Int)) (raw : List Summary.Raw) : List Summary.Row :=
  Summary.withThroughput 0 0 ((Summary.kept diag raw).map (Summary.aggregate p raw))

theorem table_bare (p : Summary.Params) (diag : Option (List Int)) (raw : List Summary.Raw) :
    Summary.table p diag raw =
      (bare p diag raw).map (fun r => { r with duration := Summary.durationFor p raw r.label }) := rfl

theorem withThroughput_cycle (x y : Rat) (l : List Summary.Row) :
    (Summary.withThroughput x y l).map Summary.Row.cycle = l.map Summary.Row.cycle := by
  induction l generalizing x y with
  | nil => rfl
  | cons r l ih => simp only [Summary.withThroughput, List.map_cons, ih]

theorem bare_split (p : Summary.Params) (diag : Option (List Int)) (raw : List Summary.Raw) (c : Int) :
    ∃ x y, bare p diag raw =
      Summary.withThroughput 0 0 (((Summary.kept diag raw).filter (fun x => decide (x ≤ c))).map (Summary.aggregate p raw)) ++
      Summary.withThroughput x y (((Summary.kept diag raw).filter (fun x => decide (c < x))).map (Summary.aggregate p raw)) := by
  have hs := filter_split c (Summary.kept_regular diag raw).1
  unfold bare
  conv in List.map (Summary.aggregate p raw) (Summary.kept diag raw) => rw [hs, List.map_append]
  exact withThroughput_append _ _ _ _

theorem bare_tail {p : Summary.Params} {raw : List Summary.Raw} {ks : List Int} {c : Int} {x y : Rat}
    {r : Summary.Row}
    (h : r ∈ Summary.withThroughput x y ((ks.filter (fun x => decide (c < x))).map (Summary.aggregate p raw))) :
    c < r.cycle := by
  have : r.cycle ∈ (Summary.withThroughput x y ((ks.filter (fun x => decide (c < x))).map (Summary.aggregate p raw))).map Summary.Row.cycle :=
    List.mem_map.mpr ⟨r, h, rfl⟩
  rw [withThroughput_cycle, List.map_map] at this
  obtain ⟨k, hk, e⟩ := List.mem_map.mp this
  have h1 := (List.mem_filter.mp hk).2
  simp only [decide_eq_true_eq] at h1
  have e' : k = r.cycle := e
  omega

theorem bare_head {p : Summary.Params} {raw : List Summary.Raw} {ks : List Int} {c : Int} {x y : Rat}
    {r : Summary.Row}
    (h : r ∈ Summary.withThroughput x y ((ks.filter (fun x => decide (x ≤ c))).map (Summary.aggregate p raw))) :
    r.cycle ≤ c := by
  have : r.cycle ∈ (Summary.withThroughput x y ((ks.filter (fun x => decide (x ≤ c))).map (Summary.aggregate p raw))).map Summary.Row.cycle :=
    List.mem_map.mpr ⟨r, h, rfl⟩
  rw [withThroughput_cycle, List.map_map] at this
  obtain ⟨k, hk, e⟩ := List.mem_map.mp this
  have h1 := (List.mem_filter.mp hk).2
  simp only [decide_eq_true_eq] at h1
  have e' : k = r.cycle := e
  omega

/-- a finished cycle has the same bare row, and it is not the last one if `more` has a regular cycle -/
theorem bare_mem {p : Summary.Params} {diag : Option (List Int)} {raw more : List Summary.Raw} {r : Summary.Row}
    (hr : r ∈ bare p diag raw) (hf : Finished (more.map Summary.Raw.cycle) r.cycle) :
    ∃ pre post, bare p diag (raw ++ more) = pre ++ post ∧ r ∈ pre ∧ (∀ q ∈ pre, q.cycle ≤ r.cycle) ∧ ∀ q ∈ post, r.cycle < q.cycle := by
  obtain ⟨x, y, e⟩ := bare_split p diag raw r.cycle
  obtain ⟨x', y', e'⟩ := bare_split p diag (raw ++ more) r.cycle
  refine ⟨_, _, e', ?_, fun q hq => bare_head hq, fun q hq => bare_tail hq⟩
  rw [e] at hr
  rcases List.mem_append.mp hr with h | h
  · rw [kept_upto hf]
    have : ((Summary.kept diag raw).filter (fun x => decide (x ≤ r.cycle))).map (Summary.aggregate p (raw ++ more)) =
        ((Summary.kept diag raw).filter (fun x => decide (x ≤ r.cycle))).map (Summary.aggregate p raw) := by
      apply List.map_congr_left
      intro k hk
      have hk' := (List.mem_filter.mp hk).2
      simp only [decide_eq_true_eq] at hk'
      unfold Summary.aggregate
      rw [cycleRows_more (finished_le hf hk')]
    rw [this]
    exact h
  · exact absurd (bare_tail h) (lt_irrefl _)

theorem mem_dropLast_of {α : Type} {a : α} {pre post : List α} (h : a ∈ pre) (hp : post ≠ []) :
    a ∈ (pre ++ post).dropLast := by
  rw [List.dropLast_append_of_ne_nil hp]
  exact List.mem_append_left _ h

theorem summarize_sub {p : Summary.Params} {diag : Option (List Int)} {raw : List Summary.Raw} {s : List Summary.Row}
    (h : Summary.summarize p diag raw = .ok s) :
    s = Summary.table p diag raw ∨ s = (Summary.table p diag raw).dropLast := by
  unfold Summary.summarize at h
  simp only at h
  split at h
  · cases h; exact Or.inl rfl
  · split at h
    · rename_i hn
      split at h
      · cases h
      · cases h
        rw [List.getLast?_eq_none_iff] at hn
        exact Or.inl hn.symm
    · split at h
      · cases h; exact Or.inl rfl
      · cases h; exact Or.inr rfl

theorem table_length_pos {p : Summary.Params} {diag : Option (List Int)} {raw more : List Summary.Raw} {r : Summary.Row}
    (hf : Finished (more.map Summary.Raw.cycle) r.cycle)
    {pre post : List Summary.Row} (e : bare p diag (raw ++ more) = pre ++ post)
    (hpre : ∀ q ∈ pre, q.cycle ≤ r.cycle) (hreg : ∃ b ∈ more, b.cycle ∉ diag.getD []) : post ≠ [] := by
  obtain ⟨b, hb, hd⟩ := hreg
  intro hp
  have hk : b.cycle ∈ Summary.kept diag (raw ++ more) :=
    ((Summary.kept_regular diag (raw ++ more)).2 _).mpr ⟨⟨b, List.mem_append_right _ hb, rfl⟩, hd⟩
  have : b.cycle ∈ (bare p diag (raw ++ more)).map Summary.Row.cycle := by
    unfold bare
    rw [withThroughput_cycle, List.map_map]
    exact List.mem_map.mpr ⟨_, hk, rfl⟩
  rw [e, hp, List.append_nil] at this
  obtain ⟨q, hq, eq⟩ := List.mem_map.mp this
  have h1 := hpre q hq
  have h2 := hf b.cycle (List.mem_map.mpr ⟨b, hb, rfl⟩)
  omega

/-- the entry of the list of durations at a position before the end of the finished cycles -/
theorem durationAt_more {p : Summary.Params} {raw more : List Summary.Raw} {c : Int} {i : Nat}
    (hf : Finished (more.map Summary.Raw.cycle) c)
    (hi : i < ((Summary.cycles raw).filter (fun x => decide (x ≤ c))).length) :
    Summary.durationAt p (raw ++ more) i = Summary.durationAt p raw i := by
  have e1 : (Summary.cycles raw)[i]? = ((Summary.cycles raw).filter (fun x => decide (x ≤ c)))[i]? := by
    conv_lhs => rw [filter_split c (l := Summary.cycles raw) (sorted_groupKeys _)]
    rw [List.getElem?_append_left hi]
  have hu : (Summary.cycles (raw ++ more)).filter (fun x => decide (x ≤ c)) =
      (Summary.cycles raw).filter (fun x => decide (x ≤ c)) := by
    unfold Summary.cycles
    rw [List.map_append]
    exact groupKeys_upto hf
  have e2 : (Summary.cycles (raw ++ more))[i]? = ((Summary.cycles raw).filter (fun x => decide (x ≤ c)))[i]? := by
    conv_lhs => rw [filter_split c (l := Summary.cycles (raw ++ more)) (sorted_groupKeys _)]
    rw [hu, List.getElem?_append_left hi]
  unfold Summary.durationAt
  rw [e1, e2, List.getElem?_eq_getElem hi]
  have hm := List.getElem_mem hi
  have hk := (List.mem_filter.mp hm).2
  simp only [decide_eq_true_eq] at hk
  simp only [cycleRows_more (finished_le hf hk)]

theorem noGap_length {raw : List Summary.Raw} {c : Int} (hc : 0 ≤ c) (hg : NoGap (raw.map Summary.Raw.cycle) c) :
    c.toNat < ((Summary.cycles raw).filter (fun x => decide (x ≤ c))).length := by
  have hsub : (List.range (c.toNat + 1)).map (fun k : Nat => (k : Int)) ⊆
      (Summary.cycles raw).filter (fun x => decide (x ≤ c)) := by
    intro x hx
    obtain ⟨k, hk, rfl⟩ := List.mem_map.mp hx
    have hk' := List.mem_range.mp hk
    have hle : (k : Int) ≤ c := by omega
    refine List.mem_filter.mpr ⟨?_, by simpa using hle⟩
    unfold Summary.cycles
    exact mem_groupKeys.mpr (hg k (by omega) hle)
  have hn : ((List.range (c.toNat + 1)).map (fun k : Nat => (k : Int))).Nodup :=
    List.nodup_range.map (fun a b h => by exact_mod_cast h)
  have := (List.subperm_of_subset hn hsub).length_le
  rw [List.length_map, List.length_range] at this
  omega

/-! ### interpolation -/

theorem collect_filter {β : Type} {f : Int → Except Err (List β)} {key : β → Int} {as : List Int} {out : List β}
    (h : Interp.collect f as = .ok out) (hn : as.Nodup) (hk : ∀ a ∈ as, ∀ b, f a = .ok b → ∀ r ∈ b, key r = a) (c : Int) :
    (c ∉ as → out.filter (fun r => decide (key r = c)) = []) ∧
    (c ∈ as → f c = .ok (out.filter (fun r => decide (key r = c)))) := by
  induction as generalizing out with
  | nil =>
    simp only [Interp.collect, Except.ok.injEq] at h
    subst h
    exact ⟨fun _ => rfl, fun h => by cases h⟩
  | cons a as ih =>
    obtain ⟨b, hb, bs, hbs, rfl⟩ := Interp.collect_cons h
    rw [List.nodup_cons] at hn
    obtain ⟨i1, i2⟩ := ih hbs hn.2 (fun a ha => hk a (List.mem_cons_of_mem _ ha))
    have hba := hk a (by simp) b hb
    by_cases hc : a = c
    · subst hc
      refine ⟨fun h => absurd (by simp) h, fun _ => ?_⟩
      rw [List.filter_append, i1 hn.1, List.append_nil, List.filter_eq_self.mpr (fun r hr => by simp [hba r hr]), hb]
    · have hnil : b.filter (fun r => decide (key r = c)) = [] := by
        rw [List.filter_eq_nil_iff]
        intro r hr
        simp [hba r hr, hc]
      rw [List.filter_append, hnil, List.nil_append]
      refine ⟨fun h => i1 (fun h' => h (List.mem_cons_of_mem _ h')), fun h => i2 ?_⟩
      rcases List.mem_cons.mp h with e | e
      · exact absurd e.symm hc
      · exact e

theorem oneStep_cycle {raw : List Steps.Row} {axis t : String} {v : Rat × Rat} {n : Nat} {c : Int}
    {step : List Steps.Row} {out : List Interp.OutRow}
    (h : Interp.interpolateOneStep raw axis t v n c step = .ok out) : ∀ r ∈ out, r.cycle = c := by
  unfold Interp.interpolateOneStep at h
  split at h
  · cases h; intro r hr; cases hr
  · split at h
    · cases h
    · split at h
      · cases h
      · split at h
        · cases h
        · split at h
          · cases h
          · cases h
            intro r hr
            obtain ⟨q, _, rfl⟩ := List.mem_map.mp hr
            rfl

theorem cycle_cycle {raw : List Steps.Row} {b : Bool} {axis t : String} {v : Rat × Rat} {n : Nat} {c : Int}
    {out : List Interp.OutRow} (h : Interp.interpolateCycle raw b axis t v n c = .ok out) : ∀ r ∈ out, r.cycle = c := by
  unfold Interp.interpolateCycle at h
  split at h
  · cases h
  · intro r hr
    obtain ⟨a, _, o, ho, hro⟩ := Interp.collect_mem h hr
    exact oneStep_cycle ho r hro

theorem rows_more {raw more : List Steps.Row} {c : Int} (hf : Finished (more.map Steps.Row.cycle) c) :
    (raw ++ more).filter (fun r => decide (r.cycle = c)) = raw.filter (fun r => decide (r.cycle = c)) := by
  rw [List.filter_append]
  have : more.filter (fun r => decide (r.cycle = c)) = [] := by
    rw [List.filter_eq_nil_iff]
    intro r hr
    have := hf r.cycle (List.mem_map.mpr ⟨r, hr, rfl⟩)
    simp only [decide_eq_true_eq]; omega
  rw [this, List.append_nil]

theorem minN_more {a b : List (Option Rat)} (h : ∀ v, some v ∈ b → ∃ w, some w ∈ a ∧ w ≤ v) :
    minN (a ++ b) = minN a := by
  cases ha : minN a with
  | none =>
    rw [minN_none] at ha ⊢
    rintro ⟨v, hv⟩
    rcases List.mem_append.mp hv with h' | h'
    · exact ha ⟨v, h'⟩
    · obtain ⟨w, hw, _⟩ := h v h'
      exact ha ⟨w, hw⟩
  | some m =>
    obtain ⟨h1, h2⟩ := minN_some a m ha
    refine Props.SummaryFull.isMin_iff.mpr ⟨List.mem_append_left _ h1, fun v hv => ?_⟩
    rcases List.mem_append.mp hv with h' | h'
    · exact h2 v h'
    · obtain ⟨w, hw, hle⟩ := h v h'
      exact le_trans (h2 w hw) hle

theorem maxN_more {a b : List (Option Rat)} (h : ∀ v, some v ∈ b → ∃ w, some w ∈ a ∧ v ≤ w) :
    maxN (a ++ b) = maxN a := by
  cases ha : maxN a with
  | none =>
    rw [maxN_none] at ha ⊢
    rintro ⟨v, hv⟩
    rcases List.mem_append.mp hv with h' | h'
    · exact ha ⟨v, h'⟩
    · obtain ⟨w, hw, _⟩ := h v h'
      exact ha ⟨w, hw⟩
  | some m =>
    obtain ⟨h1, h2⟩ := maxN_some a m ha
    refine Summary.isMax_iff.mpr ⟨List.mem_append_left _ h1, fun v hv => ?_⟩
    rcases List.mem_append.mp hv with h' | h'
    · exact h2 v h'
    · obtain ⟨w, hw, hle⟩ := h v h'
      exact le_trans hle (h2 w hw)

/-- the range of the grid does not change -/
theorem axisRange_more {raw more step : List Steps.Row} {axis : String} {v : Rat × Rat}
    (h : axis = "charge_capacity" ∨ axis = "discharge_capacity" → Within axis raw more) :
    Interp.axisRange (raw ++ more) step axis v = Interp.axisRange raw step axis v := by
  unfold Interp.axisRange
  by_cases ha : axis = "charge_capacity" ∨ axis = "discharge_capacity"
  · have hw := h ha
    have hax : ∀ r, Interp.axisOf axis r = capacityOf axis r := by
      intro r
      unfold Interp.axisOf capacityOf
      rcases ha with e | e <;> subst e <;> rfl
    have hmem : ∀ v, some v ∈ more.map (Interp.axisOf axis) → ∃ lo ∈ raw, ∃ hi ∈ raw, ∃ a z,
        capacityOf axis lo = some a ∧ capacityOf axis hi = some z ∧ a ≤ v ∧ v ≤ z := by
      intro v hv
      obtain ⟨b, hb, e⟩ := List.mem_map.mp hv
      rw [hax] at e
      exact hw b hb v e
    have e1 : minN ((raw ++ more).map (Interp.axisOf axis)) = minN (raw.map (Interp.axisOf axis)) := by
      rw [List.map_append]
      refine minN_more (fun v hv => ?_)
      obtain ⟨lo, hlo, hi, hhi, a, z, g1, g2, g3, g4⟩ := hmem v hv
      exact ⟨a, List.mem_map.mpr ⟨lo, hlo, by rw [hax, g1]⟩, g3⟩
    have e2 : maxN ((raw ++ more).map (Interp.axisOf axis)) = maxN (raw.map (Interp.axisOf axis)) := by
      rw [List.map_append]
      refine maxN_more (fun v hv => ?_)
      obtain ⟨lo, hlo, hi, hhi, a, z, g1, g2, g3, g4⟩ := hmem v hv
      exact ⟨z, List.mem_map.mpr ⟨hi, hhi, by rw [hax, g2]⟩, g4⟩
    simp only [e1, e2]
  · have hb : (axis == "charge_capacity" || axis == "discharge_capacity") = false := by
      simp only [Bool.or_eq_false_iff, beq_eq_false_iff_ne]
      exact not_or.mp ha
    simp only [hb]
    rfl

theorem interpolateCycle_more {raw more : List Steps.Row} {b : Bool} {axis t : String} {v : Rat × Rat} {n : Nat} {c : Int}
    (hf : Finished (more.map Steps.Row.cycle) c)
    (h : axis = "charge_capacity" ∨ axis = "discharge_capacity" → Within axis raw more) :
    Interp.interpolateCycle (raw ++ more) b axis t v n c = Interp.interpolateCycle raw b axis t v n c := by
  unfold Interp.interpolateCycle
  rw [rows_more hf]
  have : Interp.interpolateOneStep (raw ++ more) axis t v n c = Interp.interpolateOneStep raw axis t v n c := by
    funext step
    unfold Interp.interpolateOneStep
    rw [axisRange_more h]
  rw [this]

theorem cycleIndices_nodup (raw : List Steps.Row) (reg ex : List Int) : (Interp.cycleIndices raw reg ex).Nodup := by
  unfold Interp.cycleIndices
  exact (sortBy_perm _ _).nodup_iff.mpr ((nodup_unique _).filter _)

theorem mem_cycleIndices {raw : List Steps.Row} {reg ex : List Int} {c : Int} :
    c ∈ Interp.cycleIndices raw reg ex ↔ (∃ r ∈ raw, r.cycle = c) ∧ c ∈ reg ∧ c ∉ ex := by
  unfold Interp.cycleIndices
  rw [mem_sortBy, List.mem_filter, mem_unique, List.mem_map]
  simp

theorem interpolateStep_more {raw more : List Steps.Row} {b : Bool} {axis t : String} {v : Rat × Rat} {n : Nat}
    {reg reg' ex : List Int} {c : Int} {out out' : List Interp.OutRow}
    (h : Interp.interpolateStep raw b v n t reg axis ex = .ok out)
    (h' : Interp.interpolateStep (raw ++ more) b v n t reg' axis ex = .ok out')
    (hf : Finished (more.map Steps.Row.cycle) c)
    (hr : c ∈ reg ↔ c ∈ reg')
    (hw : axis = "charge_capacity" ∨ axis = "discharge_capacity" → Within axis raw more) :
    out'.filter (fun r => decide (r.cycle = c)) = out.filter (fun r => decide (r.cycle = c)) := by
  unfold Interp.interpolateStep at h h'
  have a1 := collect_filter (key := Interp.OutRow.cycle) h (cycleIndices_nodup _ _ _) (fun _ _ _ => cycle_cycle) c
  have a2 := collect_filter (key := Interp.OutRow.cycle) h' (cycleIndices_nodup _ _ _) (fun _ _ _ => cycle_cycle) c
  have hiff : c ∈ Interp.cycleIndices (raw ++ more) reg' ex ↔ c ∈ Interp.cycleIndices raw reg ex := by
    rw [mem_cycleIndices, mem_cycleIndices, hr]
    refine and_congr_left (fun _ => ?_)
    constructor
    · rintro ⟨r, hr, e⟩
      rcases List.mem_append.mp hr with g | g
      · exact ⟨r, g, e⟩
      · have := hf r.cycle (List.mem_map.mpr ⟨r, g, rfl⟩); omega
    · rintro ⟨r, hr, e⟩
      exact ⟨r, List.mem_append_left _ hr, e⟩
  by_cases hc : c ∈ Interp.cycleIndices raw reg ex
  · have e1 := a1.2 hc
    have e2 := a2.2 (hiff.mpr hc)
    rw [interpolateCycle_more hf hw, e1, Except.ok.injEq] at e2
    exact e2.symm
  · rw [a1.1 hc, a2.1 (fun h => hc (hiff.mp h))]

end Beep.Growth
