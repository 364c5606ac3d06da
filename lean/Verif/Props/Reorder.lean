import Verif.Spec.Reorder
import Verif.Proof.Growth
import Verif.Props.Metamorphic
import Verif.Props.Growth
import Verif.Props.DiagInterp
/-
C171: structuring does not depend on the order in which the cycles are stored.
-/
namespace Beep.Props.Reorder
open Beep Beep.Pandas Beep.Spec.Reorder

section
variable {α β : Type} {key : α → Int} {a b : List α}

/-- blocks without a common cycle may be exchanged -/
theorem exchanged (u x y v : List α) (h : NoCommonCycle key x y) :
    SameWithinCycles key (u ++ x ++ y ++ v) (u ++ y ++ x ++ v) := by
  intro c
  simp only [List.filter_append, List.append_assoc]
  congr 1
  rw [← List.append_assoc, ← List.append_assoc]
  congr 1
  by_cases hx : ∃ r ∈ x, key r = c
  · obtain ⟨r, hr, e⟩ := hx
    have : y.filter (fun r => decide (key r = c)) = [] := by
      rw [List.filter_eq_nil_iff]
      intro q hq
      have := h r hr q hq
      simp only [decide_eq_true_eq]
      rw [← e]
      exact fun e' => this e'.symm
    rw [this]; simp
  · have : x.filter (fun r => decide (key r = c)) = [] := by
      rw [List.filter_eq_nil_iff]
      intro q hq
      simp only [decide_eq_true_eq]
      exact fun e => hx ⟨q, hq, e⟩
    rw [this]; simp

theorem mem_iff (h : SameWithinCycles key a b) (r : α) : r ∈ a ↔ r ∈ b := by
  have := h (key r)
  constructor
  · intro hr
    have hm : r ∈ a.filter (fun q => decide (key q = key r)) := List.mem_filter.mpr ⟨hr, by simp⟩
    rw [this] at hm
    exact (List.mem_filter.mp hm).1
  · intro hr
    have hm : r ∈ b.filter (fun q => decide (key q = key r)) := List.mem_filter.mpr ⟨hr, by simp⟩
    rw [← this] at hm
    exact (List.mem_filter.mp hm).1

theorem keys (h : SameWithinCycles key a b) : groupKeys (a.map key) = groupKeys (b.map key) := by
  apply Growth.sorted_ext (sorted_groupKeys _) (sorted_groupKeys _)
  intro c
  rw [mem_groupKeys, mem_groupKeys, List.mem_map, List.mem_map]
  simp only [mem_iff h]

theorem contains (h : SameWithinCycles key a b) (c : Int) :
    (unique (a.map key)).contains c = (unique (b.map key)).contains c := by
  rw [Bool.eq_iff_iff, List.contains_iff_mem, List.contains_iff_mem, mem_unique, mem_unique, List.mem_map, List.mem_map]
  simp only [mem_iff h]

theorem filter (h : SameWithinCycles key a b) (p : α → Bool) :
    SameWithinCycles key (a.filter p) (b.filter p) := by
  intro c
  rw [List.filter_comm, h c, List.filter_comm]

theorem map (h : SameWithinCycles key a b) (f : α → β) (key' : β → Int) (hk : ∀ r, key' (f r) = key r) :
    SameWithinCycles key' (a.map f) (b.map f) := by
  intro c
  rw [List.filter_map, List.filter_map]
  have : (fun r => decide (key' r = c)) ∘ f = fun r => decide (key r = c) := by
    funext r; simp [hk]
  rw [this, h c]

theorem any (h : SameWithinCycles key a b) (p : α → Bool) : a.any p = b.any p := by
  rw [Bool.eq_iff_iff, List.any_eq_true, List.any_eq_true]
  simp only [mem_iff h]

theorem minN_same (h : SameWithinCycles key a b) (f : α → Option Rat) : minN (a.map f) = minN (b.map f) := by
  have hm : ∀ v, v ∈ a.map f ↔ v ∈ b.map f := by intro v; simp only [List.mem_map, mem_iff h]
  cases ha : minN (a.map f) with
  | none =>
    symm
    rw [minN_none] at ha ⊢
    simpa only [hm] using ha
  | some m =>
    obtain ⟨h1, h2⟩ := minN_some _ m ha
    exact (SummaryFull.isMin_iff.mpr ⟨(hm _).mp h1, fun v hv => h2 v ((hm _).mpr hv)⟩).symm

theorem maxN_same (h : SameWithinCycles key a b) (f : α → Option Rat) : maxN (a.map f) = maxN (b.map f) := by
  have hm : ∀ v, v ∈ a.map f ↔ v ∈ b.map f := by intro v; simp only [List.mem_map, mem_iff h]
  cases ha : maxN (a.map f) with
  | none =>
    symm
    rw [maxN_none] at ha ⊢
    simpa only [hm] using ha
  | some m =>
    obtain ⟨h1, h2⟩ := maxN_some _ m ha
    exact (Beep.Summary.isMax_iff.mpr ⟨(hm _).mp h1, fun v hv => h2 v ((hm _).mpr hv)⟩).symm

end

/-! ### the summary -/

theorem summary_same {p : Summary.Params} {diag : Option (List Int)} {a b : List Summary.Raw}
    (h : SameWithinCycles Summary.Raw.cycle a b) : Summary.summarize p diag a = Summary.summarize p diag b := by
  have hc : Summary.cycles a = Summary.cycles b := keys h
  have hrows : Summary.cycleRows a = Summary.cycleRows b := funext h
  have hreg : ∀ c, (Summary.regCycles diag a).contains c = (Summary.regCycles diag b).contains c := by
    intro c
    unfold Summary.regCycles
    cases diag with
    | none => exact contains h c
    | some ix => exact contains (filter h _) c
  have hagg : Summary.aggregate p a = Summary.aggregate p b := by
    funext c; unfold Summary.aggregate; rw [hrows]
  have hdur : ∀ l, Summary.durationFor p a l = Summary.durationFor p b l := by
    intro l; unfold Summary.durationFor Summary.durationAt; rw [hrows, hc]
  have ht : Summary.table p diag a = Summary.table p diag b := by
    unfold Summary.table
    simp only [hc, hreg, hagg, hdur]
  have hv : Summary.lastVolts a = Summary.lastVolts b := by
    unfold Summary.lastVolts; rw [hc, hrows]
  have hl : Summary.lastComplete p a = Summary.lastComplete p b := by
    funext r; unfold Summary.lastComplete; rw [hv]
  unfold Summary.summarize
  simp only [ht, hv, hl]

/-- C171, summary: all columns, the rule for the last cycle and the exceptions of the cycle summary
are the same whatever the order in which the cycles are stored. -/
theorem C171_summary (p : Summary.Params) (diag : Option (List Int)) (hasTemp : Bool) (a b : List SummaryFull.Raw)
    (h : SameWithinCycles SummaryFull.Raw.cycle a b) :
    SummaryFull.summarize p diag hasTemp a = SummaryFull.summarize p diag hasTemp b := by
  have hs := summary_same (p := p) (diag := diag) (map h SummaryFull.toRaw Summary.Raw.cycle (fun _ => rfl))
  have hrows : SummaryFull.cycleRows a = SummaryFull.cycleRows b := funext h
  have hb : SummaryFull.byLabel hasTemp a = SummaryFull.byLabel hasTemp b := by
    funext c; unfold SummaryFull.byLabel; rw [hrows]
  unfold SummaryFull.summarize
  rw [hs, hrows, hb]

/-- C171, diagnostic summary. -/
theorem C171_diagnostic_summary (diag : Option Diagnostic.Config) (hasTemp : Bool) (a b : List SummaryFull.Raw)
    (h : SameWithinCycles SummaryFull.Raw.cycle a b) :
    SummaryFull.summarizeDiagnostic diag hasTemp a = SummaryFull.summarizeDiagnostic diag hasTemp b := by
  have hrows : SummaryFull.cycleRows a = SummaryFull.cycleRows b := funext h
  have hb : SummaryFull.diagCols hasTemp a = SummaryFull.diagCols hasTemp b := by
    funext c; unfold SummaryFull.diagCols; rw [hrows]
  unfold SummaryFull.summarizeDiagnostic
  rw [keys h, hb]

/-! ### the interpolated cycles -/

theorem step_same {a b : List Steps.Row} (h : SameWithinCycles Steps.Row.cycle a b) (indet : Bool) (v : Rat × Rat)
    (n : Nat) (st : String) {r r' : List Int} (hr : ∀ c, r.contains c = r'.contains c) (axis : String) (ex : List Int) :
    Interp.interpolateStep a indet v n st r axis ex = Interp.interpolateStep b indet v n st r' axis ex := by
  have hi : Interp.cycleIndices a r ex = Interp.cycleIndices b r' ex := by
    have ho : ∀ l : List Int, l.Nodup → (sortBy (fun a b => decide (a ≤ b)) l).Pairwise (· < ·) := by
      intro l hl
      have h1 : (sortBy (fun a b : Int => decide (a ≤ b)) l).Pairwise (fun a b => decide (a ≤ b) = true) := by
        apply pairwise_sortBy
        · intro x y z; simp only [decide_eq_true_eq]; omega
        · intro x y; simp only [Bool.or_eq_true, decide_eq_true_eq]; omega
      have h2 : (sortBy (fun a b : Int => decide (a ≤ b)) l).Nodup := (sortBy_perm _ _).nodup_iff.mpr hl
      refine (h1.and h2).imp ?_
      rintro x y ⟨h1, h2⟩
      simp only [decide_eq_true_eq] at h1
      omega
    unfold Interp.cycleIndices
    apply Growth.sorted_ext (ho _ ((nodup_unique _).filter _)) (ho _ ((nodup_unique _).filter _))
    intro c
    simp only [mem_sortBy, List.mem_filter, mem_unique, List.mem_map, mem_iff h, hr]
  have ha : ∀ s, Interp.axisRange a s axis v = Interp.axisRange b s axis v := by
    intro s
    unfold Interp.axisRange
    simp only [minN_same h, maxN_same h]
  have h1 : Interp.interpolateOneStep a axis st v n = Interp.interpolateOneStep b axis st v n := by
    funext c s
    unfold Interp.interpolateOneStep
    simp only [ha]
  have hcyc : Interp.interpolateCycle a indet axis st v n = Interp.interpolateCycle b indet axis st v n := by
    funext c
    unfold Interp.interpolateCycle
    rw [h1, h c]
  unfold Interp.interpolateStep
  rw [hi, hcyc]

theorem wave_same {a b : List CyclesInterp.WfRow} (h : SameWithinCycles (fun r => r.1.cycle) a b) (hasWf chg : Bool) :
    CyclesInterp.anyWaveform hasWf chg a = CyclesInterp.anyWaveform hasWf chg b := by
  unfold CyclesInterp.anyWaveform
  rw [any h]
  congr 1
  funext r
  cases r.1.step with
  | none => rfl
  | some s =>
    have : ∀ l : List CyclesInterp.WfRow,
        l.filter (fun q => decide (q.1.cycle = r.1.cycle) && decide (q.1.step = some s)) =
        (l.filter (fun q => decide (q.1.cycle = r.1.cycle))).filter (fun q => decide (q.1.step = some s)) := by
      intro l
      rw [List.filter_filter]
      congr 1
      funext q
      rw [Bool.and_comm]
    simp only [this, h r.1.cycle]

/-- C171, interpolated aging cycles: the rows of the result, their order and the exceptions are the
same whatever the order in which the cycles are stored. -/
theorem C171_cycles (hasWf indet : Bool) (diag : Option (List Int)) (vRange : Option (Rat × Rat)) (n : Nat)
    (chargeAxis dischargeAxis : String) (exclude : List Int) (a b : List CyclesInterp.WfRow)
    (h : SameWithinCycles (fun r => r.1.cycle) a b) :
    CyclesInterp.structuredCycles a hasWf indet diag vRange n chargeAxis dischargeAxis exclude =
      CyclesInterp.structuredCycles b hasWf indet diag vRange n chargeAxis dischargeAxis exclude := by
  have hm := map h Prod.fst Steps.Row.cycle (fun _ => rfl)
  unfold CyclesInterp.structuredCycles Interp.interpolateCycles
  cases diag with
  | none => simp only [wave_same h, step_same hm indet _ n _ (contains hm)]
  | some ix =>
    simp only [wave_same (filter h fun r => !ix.contains r.1.cycle),
      step_same hm indet _ n _ (contains (filter hm fun r => !ix.contains r.cycle))]

/-! ### the diagnostic cycles -/

/-- C171, interpolated diagnostic cycles. -/
theorem C171_diagnostic_cycles (args : DiagInterp.Args) (diag : Option Diagnostic.Config) (a b : List Steps.Row)
    (h : SameWithinCycles Steps.Row.cycle a b) :
    DiagInterp.interpolateDiagnostic args diag a = DiagInterp.interpolateDiagnostic args diag b := by
  unfold DiagInterp.interpolateDiagnostic
  cases diag with
  | none => rfl
  | some cfg =>
    have hf := filter h (fun r => cfg.allIx.contains r.cycle)
    have hg : DiagInterp.cycleGroups args cfg (a.filter (fun r => cfg.allIx.contains r.cycle)) =
        DiagInterp.cycleGroups args cfg (b.filter (fun r => cfg.allIx.contains r.cycle)) := by
      funext c
      unfold DiagInterp.cycleGroups DiagInterp.tagged
      rw [hf c]
    simp only [hg, keys hf]

/-- C171, joined parts of a run: parts without common cycles may be joined in either order -/
theorem C171_joined (p : Summary.Params) (diag : Option (List Int)) (hasTemp : Bool) (a b : List SummaryFull.Raw)
    (h : NoCommonCycle SummaryFull.Raw.cycle a b) :
    SummaryFull.summarize p diag hasTemp (a ++ b) = SummaryFull.summarize p diag hasTemp (b ++ a) := by
  apply C171_summary
  have := exchanged [] a b [] h
  simpa using this

/-- the two cycles of `twoCycles`, the later one stored first and mixed with the other -/
def mixed : List SummaryFull.Raw :=
  [Metamorphic.rec' 1 20 20 0, Metamorphic.rec' 0 0 0 0, Metamorphic.rec' 1 70 70 1, Metamorphic.rec' 0 10 10 1]

/-- tables of two cycles with equal parts are the same within every cycle -/
theorem within_two {α : Type} {key : α → Int} {a b : List α} (x y : Int) (ha : ∀ r ∈ a, key r = x ∨ key r = y)
    (hb : ∀ r ∈ b, key r = x ∨ key r = y)
    (hx : a.filter (fun r => decide (key r = x)) = b.filter (fun r => decide (key r = x)))
    (hy : a.filter (fun r => decide (key r = y)) = b.filter (fun r => decide (key r = y))) :
    SameWithinCycles key a b := by
  intro c
  by_cases h1 : c = x
  · rw [h1]; exact hx
  by_cases h2 : c = y
  · rw [h2]; exact hy
  have hn : ∀ l : List α, (∀ r ∈ l, key r = x ∨ key r = y) → l.filter (fun r => decide (key r = c)) = [] := by
    intro l hl
    rw [List.filter_eq_nil_iff]
    intro r hr
    simp only [decide_eq_true_eq]
    rcases hl r hr with e | e <;> rw [e]
    · exact fun h => h1 h.symm
    · exact fun h => h2 h.symm
  rw [hn a ha, hn b hb]

example : SameWithinCycles SummaryFull.Raw.cycle Metamorphic.twoCycles mixed ∧ Metamorphic.twoCycles ≠ mixed ∧
    (SummaryFull.summarize {} none true mixed).toOption.map (List.map fun x => (x.1.cycle, x.1.duration)) =
      some [(0, some 10), (1, some 50)] ∧
    (SummaryFull.summarizeDiagnostic (some Metamorphic.second) true mixed).toOption.map
      (List.map fun r => (r.cycle, r.cycleType)) = some [(1, "rpt_0.2C")] :=
  ⟨within_two 0 1 (by decide +kernel) (by decide +kernel) (by decide +kernel) (by decide +kernel),
    by decide +kernel, by decide +kernel, by decide +kernel⟩

example : NoCommonCycle SummaryFull.Raw.cycle (Metamorphic.twoCycles.take 2) (Metamorphic.twoCycles.drop 2) := by
  unfold NoCommonCycle; decide +kernel

/-- two charges, the later one stored first -/
def laterFirst : List CyclesInterp.WfRow := (Growth.chg 1 2 ++ Growth.chg 0 1).map (fun r => (r, false))

example : SameWithinCycles (fun r : CyclesInterp.WfRow => r.1.cycle)
      ((Growth.chg 0 1 ++ Growth.chg 1 2).map (fun r => (r, false))) laterFirst ∧
    (CyclesInterp.structuredCycles laterFirst false true none none 3 "charge_capacity" "voltage" []).map
      (List.map fun r => (r.cycle, r.x)) = .ok [(0, 0), (0, 1), (0, 2), (1, 0), (1, 1), (1, 2)] :=
  ⟨within_two 0 1 (by decide +kernel) (by decide +kernel) (by decide +kernel) (by decide +kernel), by decide +kernel⟩

example : SameWithinCycles Steps.Row.cycle DiagInterp.exRaw
      (DiagInterp.exRaw.filter (fun r => r.cycle ≠ 1) ++ DiagInterp.exRaw.filter (fun r => r.cycle = 1)) ∧
    DiagInterp.exRaw ≠ DiagInterp.exRaw.filter (fun r => r.cycle ≠ 1) ++ DiagInterp.exRaw.filter (fun r => r.cycle = 1) := by
  refine ⟨?_, by decide +kernel⟩
  intro c
  rw [List.filter_append, List.filter_filter, List.filter_filter]
  by_cases h : c = 1
  · subst h; decide +kernel
  · have e : DiagInterp.exRaw.filter (fun r => decide (r.cycle = c) && decide (r.cycle = 1)) = [] := by
      rw [List.filter_eq_nil_iff]
      intro r _
      simp only [Bool.and_eq_true, decide_eq_true_eq]
      rintro ⟨h1, h2⟩
      exact h (h1.symm.trans h2)
    rw [e, List.append_nil]
    apply List.filter_congr
    intro r _
    by_cases hr : r.cycle = c
    · simp [hr, h]
    · simp [hr]

end Beep.Props.Reorder
