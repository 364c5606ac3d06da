import Verif.Proof.CoreFeatures
import Verif.Proof.Stats
import Verif.Props.DiagInterp
import Verif.Props.SummaryFull
/-
C83 (columns of CycleSummaryStats), C84 (columns of DiagnosticSummaryStats).
-/
namespace Beep.Props.CoreFeatures
open Beep Pandas CoreFeatures Spec.CoreFeatures
open Beep.Proof.CoreFeatures

theorem values_eq (rows : List IRow) (c : Int) (st : String) (col : IRow → Option Rat) :
    (select rows c st).map col = values rows c st col := by
  unfold select values
  congr 1
  apply List.filter_congr
  intro r _
  simp [Bool.decide_and]

theorem named_ok {ns : List String} {vs : List Val} {f : Dict String Val} (h : named ns vs = .ok f) :
    ns.length = vs.length ∧ f = ns.zip vs := by
  unfold named at h
  split_ifs at h with hl
  exact ⟨hl, (Except.ok.inj h).symm⟩

/-- the quantities the code computes: those of the specification, except that the last one
is taken from the rows of charge steps -/
def used : List (String × String × (IRow → Option Rat)) :=
  [("charging_capacity", "charge", IRow.chgCap), ("discharging_capacity", "discharge", IRow.dchgCap),
   ("charging_energy", "charge", IRow.chgEn), ("discharging_energy", "charge", IRow.dchgEn)]

theorem run_eq (stats : List String) (c0 c1 : Int) (rows : List IRow) :
    cycleSummaryStats stats c0 c1 rows =
      match blocks stats (used.map (fun q => (values rows c1 q.2.1 q.2.2, values rows c0 q.2.1 q.2.2))) with
      | .error e => .error e
      | .ok vs => named (names (used.map Prod.fst) stats) vs := by
  unfold cycleSummaryStats
  simp only [values_eq]
  rfl

theorem nodup_names {stats : List String} (hp : stats.Perm supported) : (names (used.map Prod.fst) stats).Nodup :=
  (names_perm hp _).nodup_iff.2 (by decide +kernel)

/-- C83: what each column holds, for any order of the statistics: the column at place `j` of a
quantity holds the statistic at place `j` of the documented order, whatever its label -/
theorem C83_positions (stats : List String) (hp : stats.Perm statistics) (c0 c1 : Int) (rows : List IRow)
    (f : Dict String Val) (h : cycleSummaryStats stats c0 c1 rows = .ok f)
    (q : String × String × (IRow → Option Rat)) (hq : q ∈ used) (j : Nat) (s stat : String)
    (hs : stats[j]? = some s) (ht : statistics[j]? = some stat) (d : List (Option Rat))
    (hd : Difference (values rows c1 q.2.1 q.2.2) (values rows c0 q.2.1 q.2.2) d) :
    f.get? (s ++ "_" ++ q.1) = some (logOf stat d) := by
  rw [run_eq] at h
  split at h
  · cases h
  rename_i vs hvs
  obtain ⟨ds, h1, h2⟩ := blocks_full hp _ hvs
  obtain ⟨hl, rfl⟩ := named_ok h
  obtain ⟨i, hi⟩ := List.mem_iff_getElem?.1 hq
  have hlen : used.length = ds.length := by simpa using h1.length_eq
  have hil : i < used.length := (List.getElem?_eq_some_iff.1 hi).1
  have hdi : ds[i]? = some d := by
    have hi' : i < ds.length := by omega
    rw [List.forall₂_iff_get] at h1
    have := (h1.2 i (by simpa using hil) hi').1
    simp only [List.get_eq_getElem, List.getElem_map] at this
    have e : used[i] = q := (List.getElem?_eq_some_iff.1 hi).2
    rw [e, minusArr_of_difference hd] at this
    rw [List.getElem?_eq_getElem hi', Except.ok.inj this]
  apply Dict.get?_of_mem
  · unfold Dict.WF Dict.keys
    rw [List.map_fst_zip (by omega)]
    exact nodup_names hp
  · rw [h2]
    exact mem_named hp _ ds (by simpa using hlen) (by rw [List.getElem?_map, hi]; rfl) hdi hs ht

/-- C83 (partial): with the documented order of the statistics, the columns of the capacities and of
the charging energy hold what their labels say.  Missing: the discharging energy
(`C83_energy_violated`), other orders (`C83_order_violated`) and selections (`C83_subset_violated`). -/
theorem C83_columns_partial (c0 c1 : Int) (rows : List IRow) (f : Dict String Val)
    (h : cycleSummaryStats statistics c0 c1 rows = .ok f) :
    Labelled (quantities.take 3) statistics c0 c1 rows f := by
  intro q hq s hs d hd
  obtain ⟨j, hj⟩ := List.mem_iff_getElem?.1 hs
  refine C83_positions statistics (.refl _) c0 c1 rows f h q ?_ j s s hj hj d hd
  have : quantities.take 3 = used.take 3 := rfl
  rw [this] at hq
  exact List.mem_of_mem_take hq

/-- two cycles with two charge rows and two discharge rows each -/
def sample : List IRow :=
  [⟨10, "charge", some 1, some 7, some 2, some 5⟩, ⟨10, "charge", some 2, some 7, some 3, some 6⟩,
   ⟨10, "discharge", some 9, some 1, some 9, some 1⟩, ⟨10, "discharge", some 9, some 3, some 9, some 2⟩,
   ⟨100, "charge", some 2, some 8, some 4, some 8⟩, ⟨100, "charge", some 4, none, some 4, some 8⟩,
   ⟨100, "discharge", some 9, some 4, some 9, some 2⟩, ⟨100, "discharge", some 9, some 5, some 9, some 4⟩]

example : ∃ f, cycleSummaryStats statistics 10 100 sample = .ok f ∧
    f.get? "mean_charging_capacity" = some (.log "mean" [some 1, some 2]) ∧
    f.get? "mean_discharging_energy" = some (.log "mean" [some 3, some 2]) := by
  refine ⟨(match cycleSummaryStats statistics 10 100 sample with | .ok f => f | .error _ => []), ?_⟩
  decide +kernel

/-- C83: the discharging energy is computed from the rows of charge steps, so that its columns are
not the statistics of the discharge energy during discharge -/
theorem C83_energy_violated :
    ¬ ∀ (rows : List IRow) (f : Dict String Val), cycleSummaryStats statistics 10 100 rows = .ok f →
      Labelled quantities statistics 10 100 rows f := by
  intro h
  have h1 := h sample _ (show cycleSummaryStats statistics 10 100 sample = .ok
    (match cycleSummaryStats statistics 10 100 sample with | .ok f => f | .error _ => []) by decide +kernel)
  have h2 := h1 ("discharging_energy", "discharge", IRow.dchgEn) (by simp [quantities]) "mean" (by decide) [some 1, some 2]
    ((difference_iff _ _ _ (by decide +kernel)).2 (by decide +kernel))
  revert h2
  decide +kernel

/-- C83: in any other order of the same statistics some column does not hold the statistic
of its label -/
theorem C83_order_violated (stats : List String) (hp : stats.Perm statistics) (hne : stats ≠ statistics) :
    ∃ s stat, s ∈ stats ∧ s ≠ stat ∧ ∀ (c0 c1 : Int) (rows : List IRow) (f : Dict String Val),
      cycleSummaryStats stats c0 c1 rows = .ok f → ∀ d,
      Difference (values rows c1 "charge" IRow.chgCap) (values rows c0 "charge" IRow.chgCap) d →
      f.get? (s ++ "_" ++ "charging_capacity") = some (logOf stat d) := by
  have : ∃ (j : Nat) (s stat : String), stats[j]? = some s ∧ statistics[j]? = some stat ∧ s ≠ stat := by
    by_contra hc
    push Not at hc
    apply hne
    apply List.ext_getElem hp.length_eq
    intro i h1 h2
    exact hc i _ _ (List.getElem?_eq_getElem h1) (List.getElem?_eq_getElem h2)
  obtain ⟨j, s, stat, hs, ht, hst⟩ := this
  refine ⟨s, stat, List.mem_of_getElem? hs, hst, ?_⟩
  intro c0 c1 rows f h d hd
  exact C83_positions stats hp c0 c1 rows f h ("charging_capacity", "charge", IRow.chgCap) (by simp [used]) j s stat hs ht d hd

example : ∃ f, cycleSummaryStats ["mean", "min", "var", "skew", "kurtosis", "abs", "square"] 10 100 sample = .ok f ∧
    f.get? "mean_charging_capacity" = some (.log "var" [some 1, some 2]) := by
  refine ⟨(match cycleSummaryStats ["mean", "min", "var", "skew", "kurtosis", "abs", "square"] 10 100 sample with
    | .ok f => f | .error _ => []), ?_⟩
  decide +kernel

theorem block_error {stats : List String} {a b : List (Option Rat)} {e : Err} (h : block stats a b = .error e) :
    e = .valueError := by
  have hm : ∀ e, minusArr a b = .error e → e = .valueError := by
    intro e he
    unfold minusArr at he
    split at he
    · cases he
    · split at he <;> cases he
      rfl
  have hs : ∀ (arr : List Rat) e, summaryStatistics stats arr = .error e → e = .valueError := by
    intro arr e he
    unfold summaryStatistics at he
    split_ifs at he <;> cases he <;> rfl
  have hf : ∀ (vs : List Val) e, fill7 vs = .error e → e = .valueError := by
    intro vs e he
    unfold fill7 at he
    split at he
    · cases he
    · split_ifs at he
      cases he; rfl
  unfold block at h
  split at h
  · rename_i e' he; cases h; exact hm _ he
  split at h
  · rename_i e' he; cases h; exact hs _ _ he
  exact hf _ _ h

theorem blocks_error {stats : List String} : ∀ (ps : List (List (Option Rat) × List (Option Rat))) {e : Err},
    blocks stats ps = .error e → e = .valueError
  | [], e, h => by cases h
  | p :: ps, e, h => by
    unfold blocks at h
    split at h
    · rename_i e' he; cases h; exact block_error he
    split at h
    · rename_i e' he; cases h; exact blocks_error ps he
    cases h

theorem run_error {stats : List String} {c0 c1 : Int} {rows : List IRow} {e : Err}
    (h : cycleSummaryStats stats c0 c1 rows = .error e) : e = .valueError := by
  rw [run_eq] at h
  split at h
  · rename_i e' he; cases h; exact blocks_error _ he
  · unfold named at h
    split_ifs at h
    cases h; rfl

/-- C83: a selection of fewer than all seven statistics is refused, whatever the data -/
theorem C83_subset_violated (stats : List String) (hlt : stats.length < 7) (c0 c1 : Int) (rows : List IRow) :
    cycleSummaryStats stats c0 c1 rows = .error .valueError := by
  cases h : cycleSummaryStats stats c0 c1 rows with
  | error e => rw [run_error h]
  | ok f =>
    exfalso
    rw [run_eq] at h
    split at h
    · cases h
    rename_i vs hvs
    have h1 := (named_ok h).1
    rw [names_length, blocks_length _ hvs] at h1
    simp [used] at h1
    omega

/-- C83: exactly when the features are created, for statistics without repetition: all seven of
them, and each of the four differences is defined and has a value.  Curves of different
length are refused, unless one is a single point (which is compared with every point). -/
theorem C83_accepts (stats : List String) (hn : stats.Nodup) (c0 c1 : Int) (rows : List IRow)
    (hl : ∀ q ∈ used, (values rows c1 q.2.1 q.2.2).length ≠ 1 ∧ (values rows c0 q.2.1 q.2.2).length ≠ 1) :
    (∃ f, cycleSummaryStats stats c0 c1 rows = .ok f) ↔
      stats.Perm statistics ∧ ∀ q ∈ used, ∃ d, Difference (values rows c1 q.2.1 q.2.2) (values rows c0 q.2.1 q.2.2) d ∧
        Spec.Stats.present d ≠ [] := by
  constructor
  · rintro ⟨f, h⟩
    have h7 : 7 ≤ stats.length := by
      by_contra hc
      rw [C83_subset_violated stats (by omega)] at h
      cases h
    rw [run_eq] at h
    split at h
    · cases h
    rename_i vs hvs
    have hp := perm_of_blocks hn hvs h7
    refine ⟨hp, ?_⟩
    intro q hq
    obtain ⟨ds, h1, -⟩ := blocks_full hp _ hvs
    obtain ⟨i, hi⟩ := List.mem_iff_getElem?.1 hq
    obtain ⟨hil, e⟩ := List.getElem?_eq_some_iff.1 hi
    have hlen : used.length = ds.length := by simpa using h1.length_eq
    rw [List.forall₂_iff_get] at h1
    have := h1.2 i (by simpa using hil) (by omega)
    simp only [List.get_eq_getElem, List.getElem_map, e] at this
    obtain ⟨hm, hne⟩ := this
    refine ⟨_, ?_, hne⟩
    obtain ⟨n1, n0⟩ := hl q hq
    unfold minusArr at hm
    split at hm
    · rename_i heq
      rw [difference_iff _ _ _ heq]
      exact (Except.ok.inj hm).symm
    · split at hm
      · rename_i y hy
        rw [hy] at n0
        simp at n0
      · rename_i x hx _
        rw [hx] at n1
        simp at n1
      · cases hm
  · rintro ⟨hp, h⟩
    obtain ⟨vs, hvs⟩ := blocks_accepts (stats := stats) hp
      (used.map (fun q => (values rows c1 q.2.1 q.2.2, values rows c0 q.2.1 q.2.2))) (by
        intro p hp'
        obtain ⟨q, hq, rfl⟩ := List.mem_map.1 hp'
        obtain ⟨d, hd, hne⟩ := h q hq
        exact ⟨d, minusArr_of_difference hd, hne⟩)
    refine ⟨(names (used.map Prod.fst) stats).zip vs, ?_⟩
    rw [run_eq, hvs]
    change named _ _ = _
    unfold named
    rw [if_pos]
    rw [names_length, blocks_length _ hvs, hp.length_eq]
    rfl

example : ∀ q ∈ used, ((values sample 100 q.2.1 q.2.2).length ≠ 1 ∧ (values sample 10 q.2.1 q.2.2).length ≠ 1) := by
  decide +kernel

/-! ### C84 -/

theorem valuesD_eq (rows : List DRow) (c s : Int) (col : DRow → Option Rat) :
    (selectD rows c s).map col = valuesD rows c s col := by
  unfold selectD valuesD
  congr 1
  apply List.filter_congr
  intro r _
  simp [Bool.decide_and]

theorem nth_of {rows : List DRow} {type : String} {k : Nat} {c : Int} (h : IsNthCycle rows type k c) :
    (unique ((rows.filter (fun r => r.cycleType = type)).map DRow.cycle))[k]? = some c := by
  obtain ⟨pre, r, post, rfl, h1, h2, h3, h4⟩ := h
  have hn : c ∉ (pre.filter (fun q => decide (q.cycleType = type))).map DRow.cycle := by
    rw [List.mem_map]
    rintro ⟨q, hq, e⟩
    rw [List.mem_filter] at hq
    exact h3 q hq.1 (by simpa using hq.2) e
  have hk : (unique ((pre.filter (fun q => decide (q.cycleType = type))).map DRow.cycle)).length = k := by
    rw [← h4, ← List.toFinset_card_of_nodup (nodup_unique _)]
    congr 1
    ext x
    simp [mem_unique]
  rw [List.filter_append, List.filter_cons_of_pos (by simpa using h1), List.map_append, List.map_cons, h2]
  have hi := Props.DiagInterp.idxOf_unique ((pre.filter (fun q => decide (q.cycleType = type))).map DRow.cycle)
    ((post.filter (fun q => decide (q.cycleType = type))).map DRow.cycle) c hn
  rw [hk] at hi
  have hm : c ∈ unique ((pre.filter (fun q => decide (q.cycleType = type))).map DRow.cycle ++
      c :: (post.filter (fun q => decide (q.cycleType = type))).map DRow.cycle) := by
    rw [mem_unique]; simp
  have hlt := List.idxOf_lt_length_iff.2 hm
  rw [hi] at hlt
  rw [List.getElem?_eq_getElem hlt]
  congr 1
  have := List.getElem_idxOf (List.idxOf_lt_length_iff.2 hm)
  simp only [hi] at this
  exact this

/-- the step of a quantity -/
def stepOf (charge : Bool) (r : Roles) : Int := if charge then r.charge else r.discharge

theorem runD_eq {stats : List String} {type : String} {p0 p1 : Nat} {roles : Nat → Roles} {rows : List DRow}
    {s : List SRow} {c0 c1 : Int} (h0 : IsNthCycle rows type p0 c0) (h1 : IsNthCycle rows type p1 c1) :
    diagnosticSummaryStats stats type p0 p1 roles rows s =
      match blocks stats (quantitiesD.map (fun q => (valuesD rows c1 (stepOf q.2.1 (roles p1)) q.2.2,
          valuesD rows c0 (stepOf q.2.1 (roles p0)) q.2.2))) with
      | .error e => .error e
      | .ok vs => match summaryDiff s p0 p1 with
        | .error e => .error e
        | .ok ds => named (names (quantitiesD.map Prod.fst) stats ++ ds.map Prod.fst) (vs ++ ds.map Prod.snd) := by
  unfold diagnosticSummaryStats
  simp only [nth_of h0, nth_of h1, valuesD_eq]
  rfl

theorem get?_append_left {d e : Dict String Val} {k : String} {v : Val} (h : d.get? k = some v) :
    Dict.get? (d ++ e) k = some v := by
  induction d with
  | nil => cases h
  | cons p d ih =>
    obtain ⟨k', v'⟩ := p
    simp only [List.cons_append, Dict.get?] at h ⊢
    split_ifs at h ⊢ with hk
    · exact h
    · exact ih h

theorem get?_append_right {d e : Dict String Val} {k : String} (h : k ∉ d.map Prod.fst) :
    Dict.get? (d ++ e) k = Dict.get? e k := by
  induction d with
  | nil => rfl
  | cons p d ih =>
    obtain ⟨k', v'⟩ := p
    simp only [List.map_cons, List.mem_cons, not_or] at h
    simp only [List.cons_append, Dict.get?]
    rw [if_neg (fun e => h.1 e.symm)]
    exact ih h.2

theorem nodup_namesD {stats : List String} (hp : stats.Perm supported) :
    (names (quantitiesD.map Prod.fst) stats).Nodup :=
  (names_perm hp _).nodup_iff.2 (by decide +kernel)

/-- the pieces of a successful run -/
theorem piecesD {stats : List String} {type : String} {p0 p1 : Nat} {roles : Nat → Roles} {rows : List DRow}
    {s : List SRow} {f : Dict String Val} (h : diagnosticSummaryStats stats type p0 p1 roles rows s = .ok f)
    {c0 c1 : Int} (h0 : IsNthCycle rows type p0 c0) (h1 : IsNthCycle rows type p1 c1) :
    ∃ vs ds, blocks stats (quantitiesD.map (fun q => (valuesD rows c1 (stepOf q.2.1 (roles p1)) q.2.2,
          valuesD rows c0 (stepOf q.2.1 (roles p0)) q.2.2))) = .ok vs ∧ summaryDiff s p0 p1 = .ok ds ∧
      (names (quantitiesD.map Prod.fst) stats).length = vs.length ∧
      f = (names (quantitiesD.map Prod.fst) stats).zip vs ++ ds := by
  rw [runD_eq h0 h1] at h
  split at h
  · cases h
  rename_i vs hvs
  split at h
  · cases h
  rename_i ds hds
  obtain ⟨hl, rfl⟩ := named_ok h
  have hl' : (names (quantitiesD.map Prod.fst) stats).length = vs.length := by
    simpa using hl
  refine ⟨vs, ds, hvs, hds, hl', ?_⟩
  rw [List.zip_append hl']
  congr 1
  clear h hl hds hvs hl' h0 h1
  induction ds with
  | nil => rfl
  | cons p ds ih => simp only [List.map_cons, List.zip_cons_cons, ih]

/-- C84: what each column of the curves holds, for any order of the statistics: the column at place
`j` of a quantity holds the statistic at place `j` of the documented order -/
theorem C84_positions (stats : List String) (hp : stats.Perm statistics) (type : String) (p0 p1 : Nat)
    (roles : Nat → Roles) (rows : List DRow) (sm : List SRow) (f : Dict String Val)
    (h : diagnosticSummaryStats stats type p0 p1 roles rows sm = .ok f)
    (c0 c1 : Int) (h0 : IsNthCycle rows type p0 c0) (h1 : IsNthCycle rows type p1 c1)
    (q : String × Bool × (DRow → Option Rat)) (hq : q ∈ quantitiesD) (j : Nat) (s stat : String)
    (hs : stats[j]? = some s) (ht : statistics[j]? = some stat) (d : List (Option Rat))
    (hd : Difference (valuesD rows c1 (stepOf q.2.1 (roles p1)) q.2.2)
      (valuesD rows c0 (stepOf q.2.1 (roles p0)) q.2.2) d) :
    f.get? (s ++ "_" ++ q.1) = some (logOf stat d) := by
  obtain ⟨vs, ds', hvs, -, hl, rfl⟩ := piecesD h h0 h1
  apply get?_append_left
  obtain ⟨ds, g1, g2⟩ := blocks_full hp _ hvs
  obtain ⟨i, hi⟩ := List.mem_iff_getElem?.1 hq
  have hlen : quantitiesD.length = ds.length := by simpa using g1.length_eq
  have hil : i < quantitiesD.length := (List.getElem?_eq_some_iff.1 hi).1
  have hdi : ds[i]? = some d := by
    have hi' : i < ds.length := by omega
    rw [List.forall₂_iff_get] at g1
    have := (g1.2 i (by simpa using hil) hi').1
    simp only [List.get_eq_getElem, List.getElem_map] at this
    have e : quantitiesD[i] = q := (List.getElem?_eq_some_iff.1 hi).2
    rw [e, minusArr_of_difference hd] at this
    rw [List.getElem?_eq_getElem hi', Except.ok.inj this]
  apply Dict.get?_of_mem
  · unfold Dict.WF Dict.keys
    rw [List.map_fst_zip (by omega)]
    exact nodup_namesD hp
  · rw [g2]
    exact mem_named hp _ ds (by simpa using hlen) (by rw [List.getElem?_map, hi]; rfl) hdi hs ht

/-- C84 (partial): with the documented order of the statistics, the column `<statistic>_<quantity>`
holds that statistic of the difference, between the two diagnostic cycles at the chosen positions, of
the quantity during its own step.  Missing: other orders (`C84_order_violated`). -/
theorem C84_columns_partial (type : String) (p0 p1 : Nat)
    (roles : Nat → Roles) (rows : List DRow) (sm : List SRow) (f : Dict String Val)
    (h : diagnosticSummaryStats statistics type p0 p1 roles rows sm = .ok f)
    (c0 c1 : Int) (h0 : IsNthCycle rows type p0 c0) (h1 : IsNthCycle rows type p1 c1)
    (name : String) (charge : Bool) (col : DRow → Option Rat) (hq : (name, charge, col) ∈ quantitiesD)
    (s : String) (hs : s ∈ statistics) (d : List (Option Rat))
    (hd : Difference (valuesD rows c1 (if charge then (roles p1).charge else (roles p1).discharge) col)
      (valuesD rows c0 (if charge then (roles p0).charge else (roles p0).discharge) col) d) :
    f.get? (s ++ "_" ++ name) = some (logOf s d) := by
  obtain ⟨j, hj⟩ := List.mem_iff_getElem?.1 hs
  exact C84_positions statistics (.refl _) type p0 p1 roles rows sm f h c0 c1 h0 h1 _ hq j s s hj hj d hd

/-- C84: in any other order of the same statistics some column does not hold the statistic
of its label -/
theorem C84_order_violated (stats : List String) (hp : stats.Perm statistics) (hne : stats ≠ statistics) :
    ∃ s stat, s ∈ stats ∧ s ≠ stat ∧ ∀ (type : String) (p0 p1 : Nat) (roles : Nat → Roles) (rows : List DRow)
      (sm : List SRow) (f : Dict String Val), diagnosticSummaryStats stats type p0 p1 roles rows sm = .ok f →
      ∀ c0 c1, IsNthCycle rows type p0 c0 → IsNthCycle rows type p1 c1 → ∀ d,
      Difference (valuesD rows c1 (roles p1).charge DRow.chgCap) (valuesD rows c0 (roles p0).charge DRow.chgCap) d →
      f.get? (s ++ "_" ++ "charging_capacity") = some (logOf stat d) := by
  have : ∃ (j : Nat) (s stat : String), stats[j]? = some s ∧ statistics[j]? = some stat ∧ s ≠ stat := by
    by_contra hc
    push Not at hc
    apply hne
    apply List.ext_getElem hp.length_eq
    intro i h1 h2
    exact hc i _ _ (List.getElem?_eq_getElem h1) (List.getElem?_eq_getElem h2)
  obtain ⟨j, s, stat, hs, ht, hst⟩ := this
  refine ⟨s, stat, List.mem_of_getElem? hs, hst, ?_⟩
  intro type p0 p1 roles rows sm f h c0 c1 h0 h1 d hd
  exact C84_positions stats hp type p0 p1 roles rows sm f h c0 c1 h0 h1 ("charging_capacity", true, DRow.chgCap)
    (by simp [quantitiesD]) j s stat hs ht d hd

/-- the label of a change between two diagnostics -/
def diffName (p0 p1 : Nat) (type metric : String) : String :=
  "diag_sum_diff_" ++ toString p0 ++ "_" ++ toString p1 ++ "_" ++ type ++ metric

theorem head_names {stats : List String} (hp : stats.Perm supported) (qs : List String) (k : String)
    (hk : k ∈ names qs stats) : k.toList.head? ≠ some 'd' := by
  unfold names at hk
  rw [List.mem_flatMap] at hk
  obtain ⟨x, -, hk⟩ := hk
  obtain ⟨y, hy, rfl⟩ := List.mem_map.1 hk
  have hy := hp.mem_iff.1 hy
  simp only [String.toList_append]
  simp only [supported, List.mem_cons, List.not_mem_nil, or_false] at hy
  rcases hy with rfl | rfl | rfl | rfl | rfl | rfl | rfl <;> simp

theorem diffName_inj {p0 p1 : Nat} {t t' m m' : String} (h : diffName p0 p1 t m = diffName p0 p1 t' m') :
    t ++ m = t' ++ m' := by
  unfold diffName at h
  rw [String.append_assoc (s₂ := t), String.append_assoc (s₂ := t')] at h
  exact (String.append_right_inj _).1 h

/-- C84: the column `diag_sum_diff_<p0>_<p1>_<type><metric>` holds the relative change of the metric
from the diagnostic at position `p0` to the one at position `p1`, of the rows of that type in the
diagnostic summary -/
theorem C84_changes (stats : List String) (hp : stats.Perm statistics) (type : String) (p0 p1 : Nat)
    (roles : Nat → Roles) (rows : List DRow) (sm : List SRow) (f : Dict String Val)
    (h : diagnosticSummaryStats stats type p0 p1 roles rows sm = .ok f)
    (c0 c1 : Int) (h0 : IsNthCycle rows type p0 c0) (h1 : IsNthCycle rows type p1 c1)
    (t : String) (ht : t = "rpt_0.2C" ∨ t = "rpt_1C" ∨ t = "rpt_2C")
    (metric : String) (col : SRow → Rat) (hm : (metric, col) ∈ metricsD) :
    ∃ a b, (sm.filter (fun r => r.cycleType = t))[p0]? = some a ∧ (sm.filter (fun r => r.cycleType = t))[p1]? = some b ∧
      f.get? ("diag_sum_diff_" ++ toString p0 ++ "_" ++ toString p1 ++ "_" ++ t ++ metric) =
        some (.num (if col a = 0 then none else some (col b / col a - 1))) := by
  obtain ⟨vs, ds, -, hds, hl, rfl⟩ := piecesD h h0 h1
  have hmem : (t, (metric, col)) ∈ (["rpt_0.2C", "rpt_1C", "rpt_2C"].flatMap (fun t => metrics.map (fun m => (t, m)))) := by
    rw [List.mem_flatMap]
    refine ⟨t, ?_, ?_⟩
    · rcases ht with rfl | rfl | rfl <;> simp
    · exact List.mem_map.2 ⟨(metric, col), hm, rfl⟩
  have hall := Summary.mapE_ok hds
  have keyed : ∀ p ∈ (["rpt_0.2C", "rpt_1C", "rpt_2C"].flatMap (fun t => metrics.map (fun m => (t, m)))), ∀ v,
      summaryDiffOne sm p0 p1 p.1 p.2 = .ok v → v.1 = diffName p0 p1 p.1 p.2.1 := by
    intro p _ v hv
    unfold summaryDiffOne at hv
    simp only at hv
    split at hv
    · cases hv; rfl
    · cases hv
  have keys : ds.map Prod.fst = (["rpt_0.2C", "rpt_1C", "rpt_2C"].flatMap (fun t => metrics.map (fun m => (t, m)))).map
      (fun p => diffName p0 p1 p.1 p.2.1) := by
    apply List.ext_getElem?
    intro i
    rw [List.getElem?_map, List.getElem?_map]
    cases hi : (["rpt_0.2C", "rpt_1C", "rpt_2C"].flatMap (fun t => metrics.map (fun m => (t, m))))[i]? with
    | none =>
      rw [List.getElem?_eq_none_iff] at hi
      rw [List.getElem?_eq_none (by omega)]
      rfl
    | some p =>
      obtain ⟨v, hv, hv'⟩ := hall.2 i p hi
      rw [hv']
      simp only [Option.map_some]
      rw [keyed p (List.mem_of_getElem? hi) v hv]
  have hnd : (ds.map Prod.fst).Nodup := by
    rw [keys]
    have hpre : ∀ l : List (String × (String × (SRow → Rat))), (l.map (fun p => p.1 ++ p.2.1)).Nodup →
        (l.map (fun p => diffName p0 p1 p.1 p.2.1)).Nodup := by
      intro l hl
      rw [List.nodup_iff_pairwise_ne, List.pairwise_map] at hl ⊢
      exact hl.imp (fun hne e => hne (diffName_inj e))
    apply hpre
    decide +kernel
  obtain ⟨i, hi⟩ := List.mem_iff_getElem?.1 hmem
  obtain ⟨v, hv, hv'⟩ := hall.2 i _ hi
  unfold summaryDiffOne at hv
  simp only at hv
  split at hv
  · rename_i b a hb ha
    refine ⟨a, b, ha, hb, ?_⟩
    change Dict.get? _ (diffName p0 p1 t metric) = _
    rw [get?_append_right]
    · apply Dict.get?_of_mem
      · exact hnd
      · have : v = (diffName p0 p1 t metric, Val.num (divR (col b - col a) (col a))) := (Except.ok.inj hv).symm
        rw [this] at hv'
        have e : (if col a = 0 then none else some (col b / col a - 1)) = divR (col b - col a) (col a) := by
          unfold divR
          split_ifs with hz
          · rfl
          · rw [sub_div, div_self hz]
        rw [e]
        exact List.mem_of_getElem? hv'
    · rw [List.map_fst_zip (by omega)]
      intro hk
      refine head_names hp _ _ hk ?_
      unfold diffName
      simp [String.toList_append]
  · cases hv

/-- two diagnostics with a charge step 1 and a discharge step 2, and an earlier cycle of another type -/
def sampleD : List DRow :=
  [⟨1, "reset", 1, 1, some 0, some 9, some 9, some 9, some 9, some 9, some 9⟩] ++
  [⟨3, "rpt_0.2C", 1, 1, some 1, some 1, some 5, some 2, some 5, some 4, some 5⟩,
   ⟨3, "rpt_0.2C", 2, 2, some 2, some 5, some 1, some 5, some 2, some 5, some 4⟩,
   ⟨8, "rpt_0.2C", 1, 1, some 3, some 3, some 5, some 4, some 5, some 8, some 5⟩,
   ⟨8, "rpt_0.2C", 2, 2, some 4, some 5, some 4, some 5, some 6, some 5, some 9⟩]

def sampleS : List SRow :=
  ["rpt_0.2C", "rpt_1C", "rpt_2C", "rpt_0.2C", "rpt_1C", "rpt_2C"].zipIdx.map
    (fun p => ⟨p.1, p.2 + 1, p.2, 2 * p.2 + 1, 1⟩)

def runSample : Dict String Val :=
  match diagnosticSummaryStats statistics "rpt_0.2C" 0 1 (fun _ => ⟨1, 2⟩) sampleD sampleS with
  | .ok f => f
  | .error _ => []

example : diagnosticSummaryStats statistics "rpt_0.2C" 0 1 (fun _ => ⟨1, 2⟩) sampleD sampleS = .ok runSample ∧
    runSample.get? "min_discharging_energy" = some (.log "min" [some 4]) ∧
    runSample.get? "diag_sum_diff_0_1_rpt_1Cdischarge_capacity" = some (.num (some (3 / 2))) := by
  decide +kernel

example : IsNthCycle sampleD "rpt_0.2C" 0 3 ∧ IsNthCycle sampleD "rpt_0.2C" 1 8 :=
  ⟨⟨sampleD.take 1, _, sampleD.drop 2, rfl, rfl, rfl, by decide +kernel, by decide +kernel⟩,
   ⟨sampleD.take 3, _, sampleD.drop 4, rfl, rfl, rfl, by decide +kernel, by decide +kernel⟩⟩

end Beep.Props.CoreFeatures
