import Verif.Proof.LeastSquares
import Verif.Props.CoreFeatures
/-
C85 (columns of DeltaQFastCharge), C86 (validated data can be featurized), C87 (the data after featurizing).
-/
namespace Beep.Props.DeltaQ
open Beep Pandas Table CoreFeatures Spec.CoreFeatures
open Beep.Proof.CoreFeatures Beep.Proof.LeastSquares
open Beep.Spec.Stats (present IsMean IsMedian)
open Beep.Spec.Summary (IsMax)
open Beep.Spec.SummaryFull (IsMin)

theorem labels_nodup : deltaLabels.Nodup := by decide +kernel

/-- the values of a successful run, in order -/
def vals (a : QArgs) (s : List QRow) (r1 rF : QRow) (d : List (Option Rat)) : List Val :=
  [.num (some r1.dchg), .num (maxN ((s.take a.final).map (fun r => some (r.dchg - r1.dchg)))), .num (some rF.dchg),
    .num (some (sumN ((s.take a.final).map QRow.integral))), .num (meanN (((s.take 6).drop 1).map QRow.duration))] ++
   curveFeatures d ++
   [.num (maxN (((s.take a.final).drop 1).map QRow.tMax)), .num (minN (((s.take a.final).drop 1).map QRow.tMin)),
    .num (some (polyfit (points 1 ((s.take a.final).drop 1))).1), .num (some (polyfit (points 1 ((s.take a.final).drop 1))).2),
    .num (some (polyfit (points (a.mid - 1) ((s.take a.final).drop (a.mid - 1)))).1),
    .num (some (polyfit (points (a.mid - 1) ((s.take a.final).drop (a.mid - 1)))).2),
    .num (minN (((s.take a.final).drop 1).map (fun r => if r.ir = some 0 then none else r.ir))), .num r1.ir,
    .num (subN rF.ir r1.ir), .num (medianN ((s.take 40).map (fun r => some r.dchg)))]

theorem curve_length (d : List (Option Rat)) : (curveFeatures d).length = 6 := by cases d <;> rfl

theorem run_ok {a : QArgs} {s : List QRow} {curve : Int → List (Option Rat)} (hf : 2 ≤ a.final) {f : Dict String Val}
    (h : deltaQ a s curve = .ok f) :
    ∃ r1 rF d, s[1]? = some r1 ∧ s[a.final - 1]? = some rF ∧
      minusArr (curve ((a.final - 1 : Nat) : Int)) (curve 9) = .ok d ∧ f = deltaLabels.zip (vals a s r1 rF d) := by
  unfold deltaQ at h
  simp only at h
  split at h
  · rename_i r1 rF upTo from1 fromMid h1 h2 h3 h4 h5
    split at h
    · cases h
    rename_i d hd
    refine ⟨r1, rF, d, h1, h2, hd, ?_⟩
    have e : a.final - 1 + 1 = a.final := by omega
    rw [e] at h3 h4 h5
    have hlen : a.final ≤ s.length := by
      have := (List.getElem?_eq_some_iff.1 h2).1
      omega
    have conv : ∀ i (l : List QRow), ilocRange s i a.final = .ok l → l = (s.take a.final).drop i := by
      intro i l hl
      unfold ilocRange at hl
      rw [if_pos (Or.inr hlen)] at hl
      exact (Except.ok.inj hl).symm
    rw [conv _ _ h3, conv _ _ h4, conv _ _ h5] at h
    exact (CoreFeatures.named_ok h).2
  · cases h

/-- a column of the result -/
theorem at_label {a : QArgs} {s : List QRow} {r1 rF : QRow} {d : List (Option Rat)} {i : Nat} {l : String} {v : Val}
    (hl : deltaLabels[i]? = some l) (hv : (vals a s r1 rF d)[i]? = some v) :
    Dict.get? (deltaLabels.zip (vals a s r1 rF d)) l = some v := by
  apply Dict.get?_of_mem
  · unfold Dict.WF Dict.keys
    rw [List.map_fst_zip]
    · exact labels_nodup
    · simp [vals, curve_length, deltaLabels]
  · rw [List.mem_iff_getElem?]
    exact ⟨i, by rw [List.getElem?_zip_eq_some]; exact ⟨hl, hv⟩⟩

theorem vals_tail (a : QArgs) (s : List QRow) (r1 rF : QRow) (d : List (Option Rat)) (i : Nat) (hi : 11 ≤ i) :
    (vals a s r1 rF d)[i]? = (vals a s r1 rF [])[i]? := by
  unfold vals
  rw [List.getElem?_append_right (by simp [curve_length]; omega), List.getElem?_append_right (by simp [curve_length]; omega)]
  simp only [List.length_append, curve_length]

/-- the column of a label holds the number with a property, and nothing if there is none -/
def Holds (f : Dict String Val) (label : String) (P : Rat → Prop) : Prop :=
  ∃ v, f.get? label = some (.num v) ∧ ∀ m, v = some m ↔ P m

/-- C85: the columns that come from the summary.  Cycle `n` is the `n`-th row of the summary;
`final` stands for the 100 of the labels. -/
theorem C85_summary (a : QArgs) (hf : 2 ≤ a.final) (s : List QRow) (curve : Int → List (Option Rat))
    (f : Dict String Val) (h : deltaQ a s curve = .ok f) :
    ∃ r2 rF, s[1]? = some r2 ∧ s[a.final - 1]? = some rF ∧
      Holds f "discharge_capacity_cycle_2" (fun m => m = r2.dchg) ∧
      Holds f "max_discharge_capacity_difference"
        (IsMax ((s.take a.final).map (fun r => some (r.dchg - r2.dchg)))) ∧
      Holds f "discharge_capacity_cycle_100" (fun m => m = rF.dchg) ∧
      Holds f "integrated_time_temperature_cycles_1:100"
        (fun m => m = (present ((s.take a.final).map QRow.integral)).sum) ∧
      Holds f "charge_time_cycles_1:5" (IsMean (present (((s.take 6).drop 1).map QRow.duration))) ∧
      Holds f "max_temperature_cycles_1:100" (IsMax (((s.take a.final).drop 1).map QRow.tMax)) ∧
      Holds f "min_temperature_cycles_1:100" (IsMin (((s.take a.final).drop 1).map QRow.tMin)) ∧
      Holds f "min_internal_resistance_cycles_2:100"
        (IsMin (((s.take a.final).drop 1).map (fun r => r.ir.filter (fun x => x ≠ 0)))) ∧
      Holds f "internal_resistance_cycle_2" (fun m => r2.ir = some m) ∧
      Holds f "internal_resistance_difference_cycles_2:100"
        (fun m => ∃ x y, rF.ir = some x ∧ r2.ir = some y ∧ m = x - y) ∧
      Holds f "nominal_capacity_by_median" (IsMedian ((s.take 40).map QRow.dchg)) := by
  obtain ⟨r1, rF, d, h1, h2, hd, rfl⟩ := run_ok hf h
  refine ⟨r1, rF, h1, h2, ?_, ?_, ?_, ?_, ?_, ?_, ?_, ?_, ?_, ?_, ?_⟩
  · exact ⟨_, at_label (i := 0) rfl rfl, fun m => by simp [eq_comm]⟩
  · exact ⟨_, at_label (i := 1) rfl rfl, fun m => Summary.isMax_iff⟩
  · exact ⟨_, at_label (i := 2) rfl rfl, fun m => by simp [eq_comm]⟩
  · exact ⟨_, at_label (i := 3) rfl rfl, fun m => by rw [Proof.Stats.sumN_eq]; simp [eq_comm]⟩
  · exact ⟨_, at_label (i := 4) rfl rfl, fun m => Proof.Stats.meanN_iff _ _⟩
  · exact ⟨_, at_label (i := 11) rfl ((vals_tail _ _ _ _ _ 11 (by omega)).trans rfl), fun m => Summary.isMax_iff⟩
  · exact ⟨_, at_label (i := 12) rfl ((vals_tail _ _ _ _ _ 12 (by omega)).trans rfl), fun m => SummaryFull.isMin_iff⟩
  · refine ⟨_, at_label (i := 17) rfl ((vals_tail _ _ _ _ _ 17 (by omega)).trans rfl), fun m => ?_⟩
    have : (fun r : QRow => if r.ir = some 0 then none else r.ir) = (fun r => r.ir.filter (fun x => x ≠ 0)) := by
      funext r
      cases hr : r.ir with
      | none => simp
      | some x => by_cases hx : x = 0 <;> simp [hx, Option.filter]
    rw [this]
    exact SummaryFull.isMin_iff
  · exact ⟨_, at_label (i := 18) rfl ((vals_tail _ _ _ _ _ 18 (by omega)).trans rfl), fun m => Iff.rfl⟩
  · refine ⟨_, at_label (i := 19) rfl ((vals_tail _ _ _ _ _ 19 (by omega)).trans rfl), fun m => ?_⟩
    cases hx : rF.ir <;> cases hy : r1.ir <;> simp [subN, eq_comm]
  · refine ⟨_, at_label (i := 20) rfl ((vals_tail _ _ _ _ _ 20 (by omega)).trans rfl), fun m => ?_⟩
    rw [Proof.Stats.medianN_iff]
    have : present ((s.take 40).map (fun r => some r.dchg)) = (s.take 40).map QRow.dchg := by
      unfold present
      rw [List.filterMap_map]
      exact congrFun List.filterMap_eq_map _
    rw [this]

theorem points_get (i : Nat) (rows : List QRow) (k : Nat) (r : QRow) (h : rows[k]? = some r) :
    (points i rows)[k]? = some (((i + k : Nat) : Rat), r.dchg) := by
  unfold points
  rw [List.getElem?_map, List.getElem?_zipIdx, h]
  simp

theorem points_length (i : Nat) (rows : List QRow) : (points i rows).length = rows.length := by simp [points]

/-- the points of the summary rows at positions `i`, ..., `j - 1` -/
def PointsOf (s : List QRow) (i j : Nat) (pts : List (Rat × Rat)) : Prop :=
  pts.length = j - i ∧ ∀ k r, i ≤ k → k < j → s[k]? = some r → pts[k - i]? = some ((k : Rat), r.dchg)

theorem pointsOf {s : List QRow} {i j : Nat} (hj : j ≤ s.length) : PointsOf s i j (points i ((s.take j).drop i)) := by
  refine ⟨by rw [points_length]; simp; omega, ?_⟩
  intro k r hi hk hr
  have := points_get i ((s.take j).drop i) (k - i) r (by
    rw [List.getElem?_drop, List.getElem?_take, if_pos (by omega)]
    rw [← hr]; congr 1; omega)
  rw [this]
  congr 3
  omega

theorem best {s : List QRow} {i j : Nat} (hj : j ≤ s.length) (hij : i + 2 ≤ j) :
    BestLine (points i ((s.take j).drop i)) (polyfit (points i ((s.take j).drop i))).1
      (polyfit (points i ((s.take j).drop i))).2 := by
  have h := pointsOf (i := i) hj
  have h0 : i < s.length := by omega
  have h1 : i + 1 < s.length := by omega
  have g0 := h.2 i s[i] (le_refl _) (by omega) (List.getElem?_eq_getElem h0)
  have g1 := h.2 (i + 1) s[i + 1] (by omega) (by omega) (List.getElem?_eq_getElem h1)
  refine polyfit_best _ _ _ (List.mem_of_getElem? g0) (List.mem_of_getElem? g1) ?_
  simp only
  exact_mod_cast (by omega : i ≠ i + 1)

/-- C85: slope and intercept are those of the one line that fits the discharge capacity best in
the sense of least squares, over rows 2 to `final`, and over rows `mid` to `final`, of the summary;
the place of a row is its position counted from zero -/
theorem C85_fit (a : QArgs) (hm : 1 ≤ a.mid) (hmf : a.mid < a.final) (hf : 3 ≤ a.final) (s : List QRow)
    (curve : Int → List (Option Rat)) (f : Dict String Val) (h : deltaQ a s curve = .ok f) :
    (∃ m b pts, f.get? "slope_discharge_capacity_cycle_number_2:100" = some (.num (some m)) ∧
      f.get? "intercept_discharge_capacity_cycle_number_2:100" = some (.num (some b)) ∧
      PointsOf s 1 a.final pts ∧ BestLine pts m b) ∧
    (∃ m b pts, f.get? "slope_discharge_capacity_cycle_number_91:100" = some (.num (some m)) ∧
      f.get? "intercept_discharge_capacity_cycle_number_91:100" = some (.num (some b)) ∧
      PointsOf s (a.mid - 1) a.final pts ∧ BestLine pts m b) := by
  obtain ⟨r1, rF, d, h1, h2, hd, rfl⟩ := run_ok (by omega) h
  have hlen : a.final ≤ s.length := by
    have := (List.getElem?_eq_some_iff.1 h2).1
    omega
  constructor
  · exact ⟨_, _, _, at_label (i := 13) rfl ((vals_tail _ _ _ _ _ 13 (by omega)).trans rfl),
      at_label (i := 14) rfl ((vals_tail _ _ _ _ _ 14 (by omega)).trans rfl), pointsOf hlen, best hlen (by omega)⟩
  · exact ⟨_, _, _, at_label (i := 15) rfl ((vals_tail _ _ _ _ _ 15 (by omega)).trans rfl),
      at_label (i := 16) rfl ((vals_tail _ _ _ _ _ 16 (by omega)).trans rfl), pointsOf hlen, best hlen (by omega)⟩

/-- the labels of the features of the difference of two discharge curves, with the statistic -/
def curveLabels : List (String × String) :=
  [("abs_min_discharge_capacity_difference_cycles_2:100", "nanmin"),
   ("abs_mean_discharge_capacity_difference_cycles_2:100", "nanmean"),
   ("abs_variance_discharge_capacity_difference_cycles_2:100", "nanvar"),
   ("abs_skew_discharge_capacity_difference_cycles_2:100", "skew"),
   ("abs_kurtosis_discharge_capacity_difference_cycles_2:100", "fisher_kurtosis")]

/-- C85 (partial): the features of the difference of discharge curves are those of the difference
between the cycles with index `final - 1` and index 9, whatever their position.  Missing: the
first cycle of the comparison is not that of the hyperparameter (`C85_init_violated`), nor
need it be the tenth row of the summary (`C85_numbering_violated`). -/
theorem C85_curve_partial (a : QArgs) (hf : 2 ≤ a.final) (s : List QRow) (curve : Int → List (Option Rat))
    (f : Dict String Val) (h : deltaQ a s curve = .ok f) (x : Option Rat) (d : List (Option Rat))
    (hd : Difference (curve ((a.final : Int) - 1)) (curve 9) (x :: d)) :
    (∀ p ∈ curveLabels, f.get? p.1 = some (.log p.2 (x :: d))) ∧
    f.get? "abs_first_discharge_capacity_difference_cycles_2:100" = some (.log "first" [x]) := by
  obtain ⟨r1, rF, d', h1, h2, hd', rfl⟩ := run_ok hf h
  have e : ((a.final - 1 : Nat) : Int) = (a.final : Int) - 1 := by omega
  rw [e, minusArr_of_difference hd] at hd'
  cases hd'
  refine ⟨?_, at_label (i := 10) rfl rfl⟩
  intro p hp
  simp only [curveLabels, List.mem_cons, List.not_mem_nil, or_false] at hp
  rcases hp with rfl | rfl | rfl | rfl | rfl
  · exact at_label (i := 5) rfl rfl
  · exact at_label (i := 6) rfl rfl
  · exact at_label (i := 7) rfl rfl
  · exact at_label (i := 8) rfl rfl
  · exact at_label (i := 9) rfl rfl

/-- C85: when neither cycle has any interpolated discharge row, the six features of the
difference are reported as the number zero instead of missing -/
theorem C85_empty_violated (a : QArgs) (hf : 2 ≤ a.final) (s : List QRow) (curve : Int → List (Option Rat))
    (f : Dict String Val) (h : deltaQ a s curve = .ok f) (h0 : curve ((a.final : Int) - 1) = []) (h9 : curve 9 = []) :
    ∀ p ∈ curveLabels, f.get? p.1 = some (.num (some 0)) := by
  obtain ⟨r1, rF, d', h1, h2, hd', rfl⟩ := run_ok hf h
  have e : ((a.final - 1 : Nat) : Int) = (a.final : Int) - 1 := by omega
  rw [e, h0, h9] at hd'
  cases hd'
  intro p hp
  simp only [curveLabels, List.mem_cons, List.not_mem_nil, or_false] at hp
  rcases hp with rfl | rfl | rfl | rfl | rfl
  · exact at_label (i := 5) rfl rfl
  · exact at_label (i := 6) rfl rfl
  · exact at_label (i := 7) rfl rfl
  · exact at_label (i := 8) rfl rfl
  · exact at_label (i := 9) rfl rfl

/-- C85: neither the first cycle of the comparison nor the number of nominal cycles has any
influence on the features -/
theorem C85_ignored_violated (a : QArgs) (init : Int) (n : Nat) (s : List QRow) (curve : Int → List (Option Rat)) :
    deltaQ { a with init := init, nNominal := n } s curve = deltaQ a s curve := rfl

/-- fourteen rows with the given first cycle index, falling capacity -/
def sample (first : Int) : List QRow :=
  (List.range 14).map (fun k => ⟨k, first + k, 5 - k / 10, some 2, some (3 + k), some (30 + k), some (20 - k),
    if k = 3 then some 0 else some (k + 1)⟩)

def small : QArgs := { init := 5, mid := 11, final := 12, nNominal := 1 }

def curves (c : Int) : List (Option Rat) := if c = 4 then [some 7, some 6] else if c = 9 then [some 5, some 3]
  else if c = 10 then [some 2, some 9] else if c = 11 then [some 4, some 1] else if c = 12 then [some 3, none] else []

def result (a : QArgs) (s : List QRow) (c : Int → List (Option Rat)) : Dict String Val :=
  match deltaQ a s c with
  | .ok f => f
  | .error _ => []

example : validDeltaQ small (sample 0) = true ∧ deltaQ small (sample 0) curves = .ok (result small (sample 0) curves) ∧
    (result small (sample 0) curves).get? "slope_discharge_capacity_cycle_number_2:100" = some (.num (some (-1 / 10))) ∧
    (result small (sample 0) curves).get? "min_internal_resistance_cycles_2:100" = some (.num (some 2)) := by
  decide +kernel

/-- C85: the features of the difference are not those between the cycles of the hyperparameters -/
theorem C85_init_violated :
    ¬ ∀ (a : QArgs) (s : List QRow) (curve : Int → List (Option Rat)) (f : Dict String Val),
      validDeltaQ a s = true → deltaQ a s curve = .ok f →
      ∀ x d, Difference (curve ((a.final : Int) - 1)) (curve (a.init - 1)) (x :: d) →
        f.get? "abs_min_discharge_capacity_difference_cycles_2:100" = some (.log "nanmin" (x :: d)) := by
  intro h
  have h1 := h small (sample 0) curves (result small (sample 0) curves) (by decide +kernel) (by decide +kernel)
    (some (-3)) [some (-5)] ((difference_iff _ _ _ (by decide +kernel)).2 (by decide +kernel))
  revert h1
  decide +kernel

/-- C85: the nominal capacity is not the median over the number of cycles of the hyperparameters -/
theorem C85_nominal_violated :
    ¬ ∀ (a : QArgs) (s : List QRow) (curve : Int → List (Option Rat)) (f : Dict String Val),
      validDeltaQ a s = true → deltaQ a s curve = .ok f →
      Holds f "nominal_capacity_by_median" (IsMedian ((s.take a.nNominal).map QRow.dchg)) := by
  intro h
  obtain ⟨v, h1, h2⟩ := h small (sample 0) curves (result small (sample 0) curves) (by decide +kernel) (by decide +kernel)
  have h3 : (result small (sample 0) curves).get? "nominal_capacity_by_median" = some (.num (some (87 / 20))) := by
    decide +kernel
  rw [h3] at h1
  have hv : v = some (87 / 20) := (Val.num.inj (Option.some.inj h1)).symm
  have h4 : IsMedian [5] ((87 : Rat) / 20) := by
    have := (h2 (87 / 20)).1 hv
    have e : ((sample 0).take small.nNominal).map QRow.dchg = [5] := by decide +kernel
    rwa [e] at this
  have h5 : IsMedian [(5 : Rat)] 5 := ⟨[5], .refl _, by simp, Or.inl ⟨0, rfl, rfl⟩⟩
  have := Proof.Stats.isMedian_unique h4 h5
  revert this
  decide +kernel

/-- C85: for cycles numbered from one, the features of the difference are not those between the
cycles of the tenth and the `final`-th row of the summary -/
theorem C85_numbering_violated :
    ¬ ∀ (a : QArgs) (s : List QRow) (curve : Int → List (Option Rat)) (f : Dict String Val),
      validDeltaQ a s = true → deltaQ a s curve = .ok f →
      ∀ r rF x d, s[9]? = some r → s[a.final - 1]? = some rF → Difference (curve rF.cycle) (curve r.cycle) (x :: d) →
        f.get? "abs_min_discharge_capacity_difference_cycles_2:100" = some (.log "nanmin" (x :: d)) := by
  intro h
  have h1 := h small (sample 1) curves (result small (sample 1) curves) (by decide +kernel) (by decide +kernel)
    ((sample 1).getD 9 ⟨0, 0, 0, none, none, none, none, none⟩) ((sample 1).getD 11 ⟨0, 0, 0, none, none, none, none, none⟩)
    (some 1) [none] (by decide +kernel) (by decide +kernel)
    ((difference_iff _ _ _ (by decide +kernel)).2 (by decide +kernel))
  revert h1
  decide +kernel

/-! ### C86 -/

/-- C86 (partial): validated data give features if the summary has at least `final` rows and the
two discharge curves have the same number of points -/
theorem C86_deltaQ_partial (a : QArgs) (hf : 2 ≤ a.final) (s : List QRow) (curve : Int → List (Option Rat))
    (hl : a.final ≤ s.length) (hc : (curve ((a.final : Int) - 1)).length = (curve 9).length) :
    ∃ f, deltaQ a s curve = .ok f := by
  have h1 : 1 < s.length := by omega
  have h2 : a.final - 1 < s.length := by omega
  have e : a.final - 1 + 1 = a.final := by omega
  have e' : ((a.final - 1 : Nat) : Int) = (a.final : Int) - 1 := by omega
  have hr : ∀ i, ilocRange s i a.final = .ok ((s.take a.final).drop i) := by
    intro i
    unfold ilocRange
    rw [if_pos (Or.inr hl)]
  refine ⟨deltaLabels.zip (vals a s s[1] s[a.final - 1]
    (List.zipWith subN (curve ((a.final : Int) - 1)) (curve 9))), ?_⟩
  unfold deltaQ
  simp only [e, hr, List.getElem?_eq_getElem h1, List.getElem?_eq_getElem h2, e']
  have hm : minusArr (curve ((a.final : Int) - 1)) (curve 9) = .ok (List.zipWith subN (curve ((a.final : Int) - 1)) (curve 9)) := by
    unfold minusArr
    rw [if_pos hc]
  simp only [hm]
  unfold named
  rw [if_pos]
  · rfl
  · simp [curve_length, deltaLabels]

/-- C86: what the validation of DeltaQFastCharge asks for, in terms of the index labels -/
theorem C86_validated (a : QArgs) (s : List QRow) :
    validDeltaQ a s = true ↔ (∃ r ∈ s, (a.final : Int) < r.label) ∧ (∃ r ∈ s, r.label ≤ a.init) ∧ 10 < a.mid ∧
      a.mid < a.final := by
  have mem : ∀ q : Rat, some q ∈ s.map (fun r => some (r.label : Rat)) ↔ ∃ r ∈ s, (r.label : Rat) = q := by
    intro q; simp
  unfold validDeltaQ
  split
  · rename_i hi lo h1 h2
    obtain ⟨m1, m2⟩ := maxN_some _ _ h1
    obtain ⟨n1, n2⟩ := minN_some _ _ h2
    obtain ⟨r, hr, er⟩ := (mem hi).mp m1
    obtain ⟨t, ht, et⟩ := (mem lo).mp n1
    simp only [Bool.and_eq_true, decide_eq_true_eq]
    have k1 : hi > (a.final : Rat) ↔ ∃ r ∈ s, (a.final : Int) < r.label := by
      constructor
      · intro h; refine ⟨r, hr, ?_⟩; rw [← er] at h; exact_mod_cast h
      · rintro ⟨x, hx, h⟩
        have : (a.final : Rat) < (x.label : Rat) := by exact_mod_cast h
        exact lt_of_lt_of_le this (m2 _ ((mem _).mpr ⟨x, hx, rfl⟩))
    have k2 : lo ≤ (a.init : Rat) ↔ ∃ r ∈ s, r.label ≤ a.init := by
      constructor
      · intro h; refine ⟨t, ht, ?_⟩; rw [← et] at h; exact_mod_cast h
      · rintro ⟨x, hx, h⟩
        have : (x.label : Rat) ≤ (a.init : Rat) := by exact_mod_cast h
        exact le_trans (n2 _ ((mem _).mpr ⟨x, hx, rfl⟩)) this
    rw [k1, k2]
    simp only [gt_iff_lt, and_assoc]
  · rename_i hno
    refine iff_of_false (by simp) ?_
    rintro ⟨⟨r, hr, -⟩, -⟩
    cases hM : maxN (s.map (fun r => some (r.label : Rat))) with
    | none => exact (maxN_none _).mp hM ⟨_, (mem _).mpr ⟨r, hr, rfl⟩⟩
    | some hi =>
      cases hm : minN (s.map (fun r => some (r.label : Rat))) with
      | none => exact (minN_none _).mp hm ⟨_, (mem _).mpr ⟨r, hr, rfl⟩⟩
      | some lo => exact hno hi lo hM hm

/-- C86 (partial): validated data whose index labels are consecutive and start at 0 or 1 have
enough rows -/
theorem C86_consecutive_partial (a : QArgs) (s : List QRow) (first : Int) (h01 : first = 0 ∨ first = 1)
    (hc : ∀ (k : Nat) r, s[k]? = some r → r.label = first + k) (hv : validDeltaQ a s = true) :
    a.final ≤ s.length ∧ 2 ≤ a.final := by
  unfold validDeltaQ at hv
  split at hv
  · rename_i hi lo h1 h2
    simp only [Bool.and_eq_true, decide_eq_true_eq] at hv
    obtain ⟨⟨⟨g1, g2⟩, g3⟩, g4⟩ := hv
    obtain ⟨m1, -⟩ := maxN_some _ _ h1
    obtain ⟨r, hr, e⟩ := List.mem_map.1 m1
    obtain ⟨k, hk⟩ := List.mem_iff_getElem?.1 hr
    have hkl := (List.getElem?_eq_some_iff.1 hk).1
    have hlab := hc k r hk
    have : (r.label : Rat) = hi := Option.some.inj e
    rw [← this] at g1
    have g1' : (a.final : Int) < r.label := by exact_mod_cast g1
    omega
  · cases hv

example : ∀ r ∈ (sample 0).zipIdx, r.1.label = (0 : Int) + r.2 := by decide +kernel

/-- C86: data that pass the validation of DeltaQFastCharge may have too few rows: nine cycles
numbered with gaps up to 13, or consecutive labels that begin late -/
theorem C86_deltaQ_violated :
    ¬ ∀ (a : QArgs) (s : List QRow) (curve : Int → List (Option Rat)), validDeltaQ a s = true →
      ∃ f, deltaQ a s curve = .ok f := by
  intro h
  obtain ⟨f, hf⟩ := h small ((sample 0).drop 5) curves (by decide +kernel)
  have : deltaQ small ((sample 0).drop 5) curves = .error .indexError := by decide +kernel
  rw [this] at hf
  cases hf

/-- C86: data that pass the validation of CycleSummaryStats may have curves of different length -/
theorem C86_cycles_violated :
    ¬ ∀ (c0 c1 : Int) (rows : List IRow), validCycles c0 c1 rows = true →
      ∃ f, cycleSummaryStats statistics c0 c1 rows = .ok f := by
  intro h
  obtain ⟨f, hf⟩ := h 10 100 (CoreFeatures.sample.take 5) (by decide +kernel)
  have : cycleSummaryStats statistics 10 100 (CoreFeatures.sample.take 5) = .error .valueError := by decide +kernel
  rw [this] at hf
  cases hf

/-- C86: DiagnosticSummaryStats cannot make features when one of the three fixed cycle types has too
few diagnostics, although the validation looks only at the type of the hyperparameters -/
theorem C86_diagnostic_violated (stats : List String) (type : String) (p0 p1 : Nat) (roles : Nat → Roles)
    (rows : List DRow) (s : List SRow) (t : String) (ht : t = "rpt_0.2C" ∨ t = "rpt_1C" ∨ t = "rpt_2C")
    (hfew : (s.filter (fun r => r.cycleType = t)).length ≤ max p0 p1) :
    ∃ e, diagnosticSummaryStats stats type p0 p1 roles rows s = .error e := by
  cases h : diagnosticSummaryStats stats type p0 p1 roles rows s with
  | error e => exact ⟨e, rfl⟩
  | ok f =>
    exfalso
    unfold diagnosticSummaryStats at h
    simp only at h
    split at h
    · split at h
      · cases h
      · split at h
        · cases h
        · rename_i ds hds
          obtain ⟨i, hi⟩ : ∃ i, (["rpt_0.2C", "rpt_1C", "rpt_2C"].flatMap (fun t => metrics.map (fun m => (t, m))))[i]? =
              some (t, ("discharge_capacity", SRow.dchgCap)) := by
            rcases ht with rfl | rfl | rfl
            · exact ⟨0, rfl⟩
            · exact ⟨4, rfl⟩
            · exact ⟨8, rfl⟩
          obtain ⟨v, hv, -⟩ := (Summary.mapE_ok hds).2 i _ hi
          unfold summaryDiffOne at hv
          simp only at hv
          split at hv
          · rename_i b a hb ha
            have h1 := (List.getElem?_eq_some_iff.1 hb).1
            have h2 := (List.getElem?_eq_some_iff.1 ha).1
            omega
          · cases hv
    · cases h

/-- C86: the comparison of the summaries can be made exactly if the validation passes for each of the
three cycle types -/
theorem C86_summary_partial (p0 p1 : Nat) (s : List SRow) :
    (∃ ds, summaryDiff s p0 p1 = .ok ds) ↔ ∀ t ∈ ["rpt_0.2C", "rpt_1C", "rpt_2C"], validDiagnostic t p0 p1 s = true := by
  have hv : ∀ t, validDiagnostic t p0 p1 s = true ↔ max p0 p1 < (s.filter (fun r => r.cycleType = t)).length := by
    intro t
    unfold validDiagnostic
    simp only [Bool.and_eq_true, decide_eq_true_eq, Bool.not_eq_true']
    constructor
    · rintro ⟨-, h⟩
      omega
    · intro h
      refine ⟨?_, by omega⟩
      cases s with
      | nil => simp at h
      | cons r s => rfl
  constructor
  · rintro ⟨ds, hds⟩ t ht
    rw [hv]
    have ht : t = "rpt_0.2C" ∨ t = "rpt_1C" ∨ t = "rpt_2C" := by simpa using ht
    obtain ⟨i, hi⟩ : ∃ i, (["rpt_0.2C", "rpt_1C", "rpt_2C"].flatMap (fun t => metrics.map (fun m => (t, m))))[i]? =
        some (t, ("discharge_capacity", SRow.dchgCap)) := by
      rcases ht with rfl | rfl | rfl
      · exact ⟨0, rfl⟩
      · exact ⟨4, rfl⟩
      · exact ⟨8, rfl⟩
    obtain ⟨v, hv, -⟩ := (Summary.mapE_ok hds).2 i _ hi
    unfold summaryDiffOne at hv
    simp only at hv
    split at hv
    · rename_i b a hb ha
      have h1 := (List.getElem?_eq_some_iff.1 hb).1
      have h2 := (List.getElem?_eq_some_iff.1 ha).1
      omega
    · cases hv
  · intro h
    have tot : ∀ l : List (String × (String × (SRow → Rat))), (∀ q ∈ l, q.1 ∈ ["rpt_0.2C", "rpt_1C", "rpt_2C"]) →
        ∃ ds, Summary.mapE (fun q : String × (String × (SRow → Rat)) => summaryDiffOne s p0 p1 q.1 q.2) l = .ok ds := by
      intro l hl
      induction l with
      | nil => exact ⟨[], rfl⟩
      | cons q l ih =>
        obtain ⟨ds, hds⟩ := ih (fun x hx => hl x (by simp [hx]))
        have hq := (hv q.1).1 (h q.1 (hl q (by simp)))
        obtain ⟨b, hb⟩ : ∃ b, (s.filter (fun r => r.cycleType = q.1))[p1]? = some b :=
          ⟨_, List.getElem?_eq_getElem (by omega)⟩
        obtain ⟨a, ha⟩ : ∃ a, (s.filter (fun r => r.cycleType = q.1))[p0]? = some a :=
          ⟨_, List.getElem?_eq_getElem (by omega)⟩
        obtain ⟨v, hv1⟩ : ∃ v, summaryDiffOne s p0 p1 q.1 q.2 = .ok v := by
          unfold summaryDiffOne
          simp only [hb, ha]
          exact ⟨_, rfl⟩
        refine ⟨v :: ds, ?_⟩
        rw [Summary.mapE, hv1]
        simp only
        rw [hds]
    exact tot _ (by
      intro q hq
      obtain ⟨t, ht, hm⟩ := List.mem_flatMap.1 hq
      obtain ⟨m, -, rfl⟩ := List.mem_map.1 hm
      exact ht)

example : validDiagnostic "rpt_0.2C" 0 1 (CoreFeatures.sampleS.filter (fun r => r.cycleType = "rpt_0.2C")) = true ∧
    ((CoreFeatures.sampleS.filter (fun r => r.cycleType = "rpt_0.2C")).filter (fun r => r.cycleType = "rpt_1C")).length ≤ max 0 1 := by
  decide +kernel

/-! ### C87 -/

/-- a row is late in the test although its cycle number is low -/
def Late (tMax : Rat) (cMin : Int) (r : DRow) : Prop := r.cycle < cMin ∧ ∃ t, r.time = some t ∧ t > tMax

/-- the same occurrence of a step -/
def SameOccurrence (q r : DRow) : Prop := q.cycle = r.cycle ∧ q.step = r.step ∧ q.counter = r.counter

def stays (tMax : Rat) (cMin : Int) (r : DRow) : Bool :=
  !((match r.time with
    | some t => decide (t > tMax)
    | none => false) && decide (r.cycle < cMin))

def sameB (q r : DRow) : Bool := decide (q.cycle = r.cycle) && decide (q.step = r.step) && decide (q.counter = r.counter)

theorem stays_iff (tMax : Rat) (cMin : Int) (r : DRow) : stays tMax cMin r = true ↔ ¬ Late tMax cMin r := by
  unfold stays Late
  cases r.time <;> simp
  rw [← not_lt (a := r.cycle)]
  tauto

theorem sameB_iff (q r : DRow) : sameB q r = true ↔ SameOccurrence q r := by
  simp [sameB, SameOccurrence, and_assoc]

theorem prepare_eq (tMax : Rat) (cMin : Int) (rows : List DRow) :
    prepare tMax cMin rows = rows.filter (fun r => stays tMax cMin r &&
      rows.any (fun q => stays tMax cMin q && (sameB q r && q.time.isSome))) := by
  unfold prepare
  simp only
  rw [List.filter_filter]
  apply List.filter_congr
  intro r _
  rw [List.any_filter, Bool.and_comm]
  rfl

/-- C87: what a featurizer of diagnostic cycles leaves in the data: the rows that are not late with a
low cycle number, of those occurrences of a step that still have a time; in the same order -/
theorem C87_kept (tMax : Rat) (cMin : Int) (rows : List DRow) :
    (prepare tMax cMin rows).Sublist rows ∧ ∀ r, r ∈ prepare tMax cMin rows ↔
      r ∈ rows ∧ ¬ Late tMax cMin r ∧ ∃ q ∈ rows, ¬ Late tMax cMin q ∧ SameOccurrence q r ∧ q.time ≠ none := by
  constructor
  · rw [prepare_eq]; exact List.filter_sublist
  · intro r
    rw [prepare_eq, List.mem_filter, Bool.and_eq_true, List.any_eq_true, stays_iff]
    simp only [Bool.and_eq_true, stays_iff, sameB_iff, Option.isSome_iff_ne_none]

theorem any_prepare (tMax : Rat) (cMin : Int) (rows : List DRow) (p : DRow → Bool) (r : DRow)
    : (prepare tMax cMin rows).any (fun q => p q && (sameB q r && q.time.isSome)) =
      rows.any (fun q => (stays tMax cMin q && p q) && (sameB q r && q.time.isSome)) := by
  rw [Bool.eq_iff_iff, List.any_eq_true, List.any_eq_true]
  constructor
  · rintro ⟨q, hq, h⟩
    rw [prepare_eq, List.mem_filter, Bool.and_eq_true] at hq
    refine ⟨q, hq.1, ?_⟩
    rw [Bool.and_eq_true] at h
    rw [Bool.and_eq_true, Bool.and_eq_true]
    exact ⟨⟨hq.2.1, h.1⟩, h.2⟩
  · rintro ⟨q, hq, h⟩
    rw [Bool.and_eq_true, Bool.and_eq_true] at h
    refine ⟨q, ?_, by rw [Bool.and_eq_true]; exact ⟨h.1.2, h.2⟩⟩
    rw [prepare_eq, List.mem_filter, Bool.and_eq_true, List.any_eq_true]
    refine ⟨hq, h.1.1, q, hq, ?_⟩
    have := h.2
    rw [Bool.and_eq_true] at this
    simp [h.1.1, this.2, sameB]

theorem prepare_twice (t1 t2 : Rat) (c1 c2 : Int) (rows : List DRow) :
    prepare t2 c2 (prepare t1 c1 rows) = rows.filter (fun r => (stays t1 c1 r && stays t2 c2 r) &&
      rows.any (fun q => (stays t1 c1 q && stays t2 c2 q) && (sameB q r && q.time.isSome))) := by
  rw [prepare_eq t2 c2 (prepare t1 c1 rows)]
  have : (fun r => stays t2 c2 r && (prepare t1 c1 rows).any (fun q => stays t2 c2 q && (sameB q r && q.time.isSome))) =
      (fun r => stays t2 c2 r && rows.any (fun q => (stays t1 c1 q && stays t2 c2 q) && (sameB q r && q.time.isSome))) := by
    funext r
    rw [any_prepare]
  rw [this, prepare_eq t1 c1 rows, List.filter_filter]
  apply List.filter_congr
  intro r _
  rw [Bool.eq_iff_iff]
  simp only [Bool.and_eq_true, List.any_eq_true]
  constructor
  · rintro ⟨⟨h2, h3⟩, h1, -⟩
    exact ⟨⟨h1, h2⟩, h3⟩
  · rintro ⟨⟨h1, h2⟩, q, hq, ⟨hq1, hq2⟩, h3⟩
    exact ⟨⟨h2, q, hq, ⟨hq1, hq2⟩, h3⟩, h1, q, hq, hq1, h3⟩

/-- C87 (partial): a second featurizer of diagnostic cycles with the same filter sees what it
would see alone, and the order of two featurizers does not matter for the data that remain.
Missing: with different filters the second one does not see what it would see alone
(`C87_alone_violated`), and the data are changed (`C87_unchanged_violated`). -/
theorem C87_repeat_partial (t1 t2 : Rat) (c1 c2 : Int) (rows : List DRow) :
    prepare t1 c1 (prepare t1 c1 rows) = prepare t1 c1 rows ∧
    prepare t2 c2 (prepare t1 c1 rows) = prepare t1 c1 (prepare t2 c2 rows) := by
  constructor
  · rw [prepare_twice, prepare_eq]
    simp only [Bool.and_self]
  · rw [prepare_twice, prepare_twice]
    apply List.filter_congr
    intro r _
    rw [Bool.and_comm (stays t1 c1 r)]
    congr 2
    funext q
    rw [Bool.and_comm (stays t1 c1 q)]

/-- C87 (partial): with a filter that is at least as strict as that of the earlier featurizer, the
second one sees what it would see alone -/
theorem C87_stricter_partial (t1 t2 : Rat) (c1 c2 : Int) (ht : t2 ≤ t1) (hc : c1 ≤ c2) (rows : List DRow) :
    prepare t2 c2 (prepare t1 c1 rows) = prepare t2 c2 rows := by
  have h : ∀ r, (stays t1 c1 r && stays t2 c2 r) = stays t2 c2 r := by
    intro r
    rw [Bool.eq_iff_iff, Bool.and_eq_true, stays_iff, stays_iff]
    constructor
    · exact fun h => h.2
    · intro h
      refine ⟨?_, h⟩
      rintro ⟨g1, t, g2, g3⟩
      exact h ⟨by omega, t, g2, lt_of_le_of_lt ht g3⟩
  rw [prepare_twice, prepare_eq]
  simp only [h]

/-- C87: the diagnostic data of the datapath are changed by creating features -/
theorem C87_unchanged_violated : ¬ ∀ rows : List DRow, prepare 1000000 6 rows = rows := by
  intro h
  have := h (CoreFeatures.sampleD.map (fun r => { r with time := some 2000000 }))
  revert this
  decide +kernel

/-- C87: the features of a featurizer depend on which other featurizer was used before on the same
datapath -/
theorem C87_alone_violated :
    ¬ ∀ (t : Rat) (c : Int) (rows : List DRow) (s : List SRow) (roles : Nat → Roles),
      diagnosticSummaryStats statistics "rpt_0.2C" 0 1 roles (prepare 1000000 6 (prepare t c rows)) s =
      diagnosticSummaryStats statistics "rpt_0.2C" 0 1 roles (prepare 1000000 6 rows) s := by
  intro h
  have := h 0 100 CoreFeatures.sampleD CoreFeatures.sampleS (fun _ => ⟨1, 2⟩)
  revert this
  decide +kernel

end Beep.Props.DeltaQ
