import Verif.Proof.Degradation
import Verif.Proof.Py
/-
C89 (fraction remaining), C90 (throughputs and their unit).
-/
namespace Beep.Props.Degradation
open Beep Pandas Degradation Spec.Degradation
open Beep.Proof.Degradation

theorem mem_regular {reg : List RegRow} {diag : List DiagRow} {r : RegRow} :
    r ∈ regularOnly reg diag ↔ r ∈ reg ∧ Regular diag r := by
  unfold regularOnly Regular
  simp only [List.mem_filter, decide_eq_true_eq, Bool.not_eq_true', List.contains_eq_mem, decide_eq_false_iff_not,
    List.mem_map, not_exists, not_and]
  constructor
  · rintro ⟨⟨h1, h2⟩, h3⟩
    exact ⟨h1, h2, h3⟩
  · rintro ⟨h1, h2, h3⟩
    exact ⟨⟨h1, h2⟩, h3⟩

theorem regularOnly_eq (reg : List RegRow) (diag : List DiagRow) :
    regularOnly reg diag = reg.filter (fun r => decide (Regular diag r)) := by
  unfold regularOnly
  rw [List.filter_filter]
  apply List.filter_congr
  intro r _
  rw [Bool.eq_iff_iff, decide_eq_true_iff]
  unfold Regular
  simp only [Bool.and_eq_true, Bool.not_eq_true', decide_eq_true_eq, List.contains_eq_mem, decide_eq_false_iff_not,
    List.mem_map, not_exists, not_and]
  exact and_comm

theorem rows_eq (reg : List RegRow) (diag : List DiagRow) (type : String) :
    (ofType diag type).filter (fun r => upTo (maxCycle ((regularOnly reg diag).map RegRow.cycle)) r.cycle) = diag.filter (fun d => decide (Reported reg diag type d)) := by
  unfold ofType
  rw [List.filter_filter]
  apply List.filter_congr
  intro d _
  rw [Bool.eq_iff_iff, decide_eq_true_iff]
  unfold Reported upTo
  cases hm : maxCycle ((regularOnly reg diag).map RegRow.cycle) with
  | none =>
    rw [maxCycle_none, List.map_eq_nil_iff] at hm
    simp only [Bool.false_and, Bool.false_eq_true, false_iff, not_and]
    rintro _ ⟨r, hr, hreg, _⟩
    have := mem_regular.2 ⟨hr, hreg⟩
    rw [hm] at this
    cases this
  | some m =>
    obtain ⟨h1, h2⟩ := maxCycle_some _ _ hm
    obtain ⟨r, hr, rfl⟩ := List.mem_map.1 h1
    simp only [Bool.and_eq_true, decide_eq_true_eq]
    constructor
    · rintro ⟨h, ht⟩
      exact ⟨ht, r, (mem_regular.1 hr).1, (mem_regular.1 hr).2, h⟩
    · rintro ⟨ht, s, hs, hsr, hle⟩
      exact ⟨le_trans hle (h2 _ (List.mem_map.2 ⟨s, mem_regular.2 ⟨hs, hsr⟩, rfl⟩)), ht⟩

/-- the regular rows as pairs -/
def pairs (reg : List RegRow) (q : String) : List (Int × Option Rat) := reg.map (fun r => (r.cycle, r.val q))

/-- what a successful call returns -/
theorem nx_ok {reg : List RegRow} {diag : List DiagRow} {metric type : String} {start interval : Rat}
    {out : List NxRow} (h : nx reg diag metric type start interval = .ok out) :
    ∃ g l p, firstAfterGap ((regularOnly reg diag).map RegRow.cycle) = some g ∧
      lastBefore ((regularOnly reg diag).map RegRow.cycle) g = some l ∧
      ((throughput ((regularOnly reg diag).map RegRow.cycle)
        ((regularOnly reg diag).map (fun r => r.val (normalizeQty metric)))).filter (fun p => decide (p.1 = l))).head? = some p ∧
      diag.filter (fun d => decide (Reported reg diag type d)) ≠ [] ∧
      out = (diag.filter (fun d => decide (Reported reg diag type d))).map (fun r =>
          ⟨r.cycle, divN (r.val metric) (reference diag metric), p.2,
           normalized p.2 (throughputBefore (throughput ((regularOnly reg diag).map RegRow.cycle)
              ((regularOnly reg diag).map (fun r => r.val (normalizeQty metric)))) r.cycle),
           normalized p.2 (throughputBefore (throughput (diag.map DiagRow.cycle)
              (diag.map (fun r => r.val (normalizeQty metric)))) r.cycle),
           start, interval, r.stamp⟩) := by
  unfold nx at h
  simp only [rows_eq] at h
  split at h
  · cases h
  · rename_i g hg
    split at h
    · cases h
    · rename_i l hl
      split at h
      · cases h
      · rename_i p hp
        split_ifs at h with he
        exact ⟨g, l, p, hg, hl, hp, by simpa using he, (Except.ok.inj h).symm⟩

/-- **C89**: the rows are the diagnostic cycles of the type asked for, in order, as far as a regular
cycle follows; each with its time stamp and the metric as a fraction of its value in the first
diagnostic cycle -/
theorem C89_fraction (reg : List RegRow) (first : DiagRow) (rest : List DiagRow) (metric type : String)
    (start interval : Rat) (out : List NxRow)
    (h : nx reg (first :: rest) metric type start interval = .ok out) :
    ∃ sel : List DiagRow, sel.Sublist (first :: rest) ∧ sel ≠ [] ∧
      (∀ d ∈ first :: rest, d ∈ sel ↔ Reported reg (first :: rest) type d) ∧
      out.length = sel.length ∧
      ∀ (i : Nat) d o, sel[i]? = some d → out[i]? = some o →
        o.cycle = d.cycle ∧ o.epoch = d.stamp ∧ o.start = start ∧ o.interval = interval ∧
        Quotient (d.val metric) (first.val metric) o.fraction := by
  obtain ⟨g, l, p, -, -, -, hne, rfl⟩ := nx_ok h
  refine ⟨_, List.filter_sublist, hne, fun d hd => by simp [List.mem_filter, hd], by simp, ?_⟩
  intro i d o hd ho
  rw [List.getElem?_map, hd] at ho
  cases ho
  exact ⟨rfl, rfl, rfl, rfl, quotient_divN _ _⟩

/-- **C89**: the same for the table of the diagnostics after cycle 100 -/
theorem C89_late (diag : List DiagRow) (metric type : String) (out : List (Int × Option Rat)) :
    fractional diag metric type = .ok out ↔
    ∃ first rest, diag = first :: rest ∧
      out.length = (diag.filter (fun d => decide (d.type = type ∧ 100 < d.cycle))).length ∧
      ∀ (i : Nat) d o, (diag.filter (fun d => decide (d.type = type ∧ 100 < d.cycle)))[i]? = some d → out[i]? = some o →
        o.1 = d.cycle ∧ Quotient (d.val metric) (first.val metric) o.2 := by
  have hfil : (ofType diag type).filter (fun r => decide (r.cycle > 100))
      = diag.filter (fun d => decide (d.type = type ∧ 100 < d.cycle)) := by
    unfold ofType
    rw [List.filter_filter]
    apply List.filter_congr
    intro d _
    rw [Bool.and_comm]
    simp [Bool.decide_and]
  unfold fractional
  rw [hfil]
  cases diag with
  | nil => simp
  | cons first rest =>
    simp only [List.isEmpty_cons, Bool.false_eq_true, if_false, Except.ok.injEq]
    constructor
    · rintro rfl
      refine ⟨first, rest, rfl, by simp, ?_⟩
      intro i d o hd ho
      rw [List.getElem?_map, hd] at ho
      cases ho
      exact ⟨rfl, quotient_divN _ _⟩
    · rintro ⟨f, r, e, hl, hv⟩
      cases e
      apply List.ext_getElem?
      intro i
      rw [List.getElem?_map]
      cases hd : (List.filter (fun d => decide (d.type = type ∧ 100 < d.cycle)) (first :: rest))[i]? with
      | none =>
        have : out[i]? = none := by
          rw [List.getElem?_eq_none_iff] at hd ⊢
          omega
        simp [this]
      | some d =>
        have hi : i < out.length := by
          rw [hl]
          exact (List.getElem?_eq_some_iff.1 hd).1
        have ho : out[i]? = some out[i] := List.getElem?_eq_getElem hi
        rw [ho]
        obtain ⟨h1, h2⟩ := hv i d _ hd ho
        simp only [Option.map_some, Option.some.injEq]
        refine Prod.ext h1.symm ?_
        change divN (d.val metric) (first.val metric) = _
        have q := quotient_divN (d.val metric) (first.val metric)
        cases hx : d.val metric with
        | none =>
          rw [h2.2 (.inl hx)]
          rfl
        | some a =>
          cases hy : first.val metric with
          | none =>
            rw [h2.2 (.inr (.inl hy))]
            rfl
          | some b =>
            by_cases hb : b = 0
            · subst hb
              rw [h2.2 (.inr (.inr hy))]
              simp [divN]
            · obtain ⟨c, hc, e⟩ := h2.1 a b hx hy hb
              rw [hc]
              simp only [divN, hb, if_false, Option.some.injEq]
              rw [← e, mul_div_assoc, div_self hb, mul_one]

theorem companion_iff (metric q : String) : Companion metric q ↔ normalizeQty metric = q := by
  have : containsSub "energy".toList metric.toList = true ↔ "energy".toList <:+: metric.toList :=
    containsSub_iff _ _
  unfold Companion normalizeQty
  by_cases h : "energy".toList <:+: metric.toList
  · rw [if_pos (this.2 h)]
    constructor
    · rintro (⟨-, e⟩ | ⟨h', -⟩)
      · exact e.symm
      · exact absurd h h'
    · intro e
      exact .inl ⟨h, e.symm⟩
  · rw [if_neg (fun e => h (this.1 e))]
    constructor
    · rintro (⟨h', -⟩ | ⟨-, e⟩)
      · exact absurd h' h
      · exact e.symm
    · intro e
      exact .inr ⟨h, e.symm⟩

theorem endsRun_iff (reg : List RegRow) (diag : List DiagRow) (c : Int) :
    EndsFirstRun reg diag c ↔ EndsRun ((regularOnly reg diag).map RegRow.cycle) c := by
  have hm : ∀ c, c ∈ (regularOnly reg diag).map RegRow.cycle ↔ ∃ r ∈ reg, Regular diag r ∧ r.cycle = c := by
    intro c
    rw [List.mem_map]
    constructor
    · rintro ⟨r, hr, e⟩
      exact ⟨r, (mem_regular.1 hr).1, (mem_regular.1 hr).2, e⟩
    · rintro ⟨r, hr, hreg, e⟩
      exact ⟨r, mem_regular.2 ⟨hr, hreg⟩, e⟩
  unfold EndsFirstRun EndsRun
  simp only [hm]
  constructor
  · rintro ⟨h1, ⟨r, h2, h3, h4⟩, h5, h6⟩
    refine ⟨h1, ⟨r.cycle, ⟨r, h2, h3, rfl⟩, h4⟩, ?_, ?_⟩
    · rintro ⟨s, hs, hr, e⟩
      exact h5 s hs hr e
    · rintro d ⟨s, hs, hr, rfl⟩ hlt
      exact h6 s hs hr hlt
  · rintro ⟨h1, ⟨d, ⟨r, h2, h3, rfl⟩, h4⟩, h5, h6⟩
    refine ⟨h1, ⟨r, h2, h3, h4⟩, ?_, ?_⟩
    · intro s hs hr e
      exact h5 ⟨s, hs, hr, e⟩
    · intro s hs hr hlt
      exact h6 s.cycle ⟨s, hs, hr, rfl⟩ hlt

theorem sorted_regular {reg : List RegRow} (diag : List DiagRow) (h : InOrder reg) :
    ((regularOnly reg diag).map RegRow.cycle).Pairwise (· < ·) := by
  rw [List.pairwise_map]
  unfold regularOnly
  exact (h.filter _).filter _

theorem throughput_eq (reg : List RegRow) (q : String) :
    throughput (reg.map RegRow.cycle) (reg.map (fun r => r.val q))
      = ((pairs reg q).map Prod.fst).zip (cumsumFrom 0 ((pairs reg q).map Prod.snd)) := by
  simp [throughput, cumsum, pairs, Function.comp_def]

theorem tot_regular (reg : List RegRow) (diag : List DiagRow) (q : String) (p : Int → Bool) :
    tot (pairs (regularOnly reg diag) q) p
      = amount reg (fun r => Regular diag r ∧ p r.cycle = true) (fun r => r.val q) := by
  unfold tot pairs amount
  rw [regularOnly_eq, List.filter_map, List.map_map, List.filter_filter]
  congr 2
  apply List.filter_congr
  intro r _
  simp only [Function.comp_apply, Bool.decide_and, Bool.decide_eq_true]
  rw [Bool.and_comm]

/-- the result of dividing a running total -/
theorem normalized_total {rows : List (Int × Option Rat)} {c : Int} {x : Rat} (hx : x ≠ 0)
    (hs : rows.Pairwise (fun a b => a.1 < b.1)) (hn : ∀ r ∈ rows, ∀ v, r.2 = some v → 0 ≤ v) :
    normalized (some x) (throughputBefore ((rows.map Prod.fst).zip (cumsumFrom 0 (rows.map Prod.snd))) c)
      = some (tot rows (fun d => decide (d < c)) / x) := by
  have hb := before c rows 0 hs hn
  unfold throughputBefore
  by_cases hp : Present rows (fun d => decide (d < c))
  · rw [hb.1 hp]
    simp only [normalized, hx, if_false, zero_add]
    congr 1
    rw [one_div, inv_mul_eq_div]
  · rw [(hb.2 hp).1, (hb.2 hp).2]
    simp [normalized]

/-- **C90**: `initial_regular_throughput` is the amount of the quantity discharged in the regular
cycles up to the first interruption, and the normalized throughputs of a diagnostic are the amounts
discharged before it in regular cycles and in diagnostic cycles, in units of it.  Missing: the case in
which the quantity is missing in the last cycle before the interruption (violated), or the unit is zero. -/
theorem C90_throughput_partial (reg : List RegRow) (diag : List DiagRow) (metric q type : String) (start interval : Rat)
    (out : List NxRow) (h : nx reg diag metric type start interval = .ok out) (hq : Companion metric q)
    (ho : InOrder reg) (hd : diag.Pairwise (fun a b => a.cycle < b.cycle))
    (hn : ∀ r ∈ reg, ∀ v, r.val q = some v → 0 ≤ v) (hn' : ∀ d ∈ diag, ∀ v, d.val q = some v → 0 ≤ v)
    (c : RegRow) (hc : c ∈ reg) (hce : EndsFirstRun reg diag c.cycle) (hcv : c.val q ≠ none)
    (hx : amount reg (fun r => Regular diag r ∧ r.cycle ≤ c.cycle) (fun r => r.val q) ≠ 0) :
    ∀ o ∈ out,
      o.initial = some (amount reg (fun r => Regular diag r ∧ r.cycle ≤ c.cycle) (fun r => r.val q)) ∧
      o.nRegular = some (amount reg (fun r => Regular diag r ∧ r.cycle < o.cycle) (fun r => r.val q) /
        amount reg (fun r => Regular diag r ∧ r.cycle ≤ c.cycle) (fun r => r.val q)) ∧
      o.nDiagnostic = some (amount diag (fun d => d.cycle < o.cycle) (fun d => d.val q) /
        amount reg (fun r => Regular diag r ∧ r.cycle ≤ c.cycle) (fun r => r.val q)) := by
  obtain ⟨g, l, p, hg, hl, hp, -, rfl⟩ := nx_ok h
  rw [(companion_iff _ _).1 hq] at hp ⊢
  have hsr := sorted_regular diag ho
  obtain ⟨g', hg', hl', -⟩ := endsRun_gap _ _ hsr ((endsRun_iff _ _ _).1 hce)
  rw [hg] at hg'
  cases hg'
  rw [hl] at hl'
  cases hl'
  -- the row of the last cycle is regular
  have hcr : Regular diag c := by
    obtain ⟨⟨r, hr, hreg, e⟩, -⟩ := hce
    exact ⟨e ▸ hreg.1, fun d hd' => e ▸ hreg.2 d hd'⟩
  have hps : (pairs (regularOnly reg diag) q).Pairwise (fun a b => a.1 < b.1) := by
    unfold pairs
    rw [List.pairwise_map]
    rw [List.pairwise_map] at hsr
    exact hsr
  have hmem : (c.cycle, c.val q) ∈ pairs (regularOnly reg diag) q :=
    List.mem_map.2 ⟨c, mem_regular.2 ⟨hc, hcr⟩, rfl⟩
  have hat := atCycle c.cycle (c.val q) (pairs (regularOnly reg diag) q) 0 hps hmem
  rw [throughput_eq, hat] at hp
  obtain ⟨v, hv⟩ := Option.ne_none_iff_exists'.1 hcv
  rw [hv] at hp
  simp only [Option.map_some, zero_add, Option.some.injEq] at hp
  have htot : tot (pairs (regularOnly reg diag) q) (fun d => decide (d ≤ c.cycle))
      = amount reg (fun r => Regular diag r ∧ r.cycle ≤ c.cycle) (fun r => r.val q) := by
    rw [tot_regular]
    unfold amount
    congr 2
    apply List.filter_congr
    intro r _
    simp
  rw [htot] at hp
  rw [← hp]
  intro o hout
  obtain ⟨d, hdm, rfl⟩ := List.mem_map.1 hout
  refine ⟨rfl, ?_, ?_⟩
  · simp only
    rw [throughput_eq, normalized_total hx hps, tot_regular]
    · congr 2
      unfold amount
      congr 2
      apply List.filter_congr
      intro r _
      simp
    · intro r hr v hv
      obtain ⟨s, hs, rfl⟩ := List.mem_map.1 hr
      exact hn s (mem_regular.1 hs).1 v hv
  · simp only
    have e : throughput (diag.map DiagRow.cycle) (diag.map (fun r => r.val q))
        = ((diag.map (fun d => (d.cycle, d.val q))).map Prod.fst).zip
          (cumsumFrom 0 ((diag.map (fun d => (d.cycle, d.val q))).map Prod.snd)) := by
      simp [throughput, cumsum, Function.comp_def]
    rw [e, normalized_total hx]
    · congr 2
      unfold tot amount
      rw [List.filter_map, List.map_map]
      rfl
    · rw [List.pairwise_map]
      exact hd
    · intro r hr v hv
      obtain ⟨s, hs, rfl⟩ := List.mem_map.1 hr
      exact hn' s hs v hv

/-- **C90** fails when the quantity is missing in the last cycle before the first interruption: the
unit is missing then and every normalized throughput is reported as zero -/
theorem C90_missing_violated (reg : List RegRow) (diag : List DiagRow) (metric q type : String) (start interval : Rat)
    (out : List NxRow) (h : nx reg diag metric type start interval = .ok out) (hq : Companion metric q)
    (ho : InOrder reg) (c : RegRow) (hc : c ∈ reg) (hce : EndsFirstRun reg diag c.cycle) (hcv : c.val q = none) :
    ∀ o ∈ out, o.initial = none ∧ o.nRegular = some 0 ∧ o.nDiagnostic = some 0 := by
  obtain ⟨g, l, p, hg, hl, hp, -, rfl⟩ := nx_ok h
  rw [(companion_iff _ _).1 hq] at hp ⊢
  have hsr := sorted_regular diag ho
  obtain ⟨g', hg', hl', -⟩ := endsRun_gap _ _ hsr ((endsRun_iff _ _ _).1 hce)
  rw [hg] at hg'
  cases hg'
  rw [hl] at hl'
  cases hl'
  have hcr : Regular diag c := by
    obtain ⟨⟨r, hr, hreg, e⟩, -⟩ := hce
    exact ⟨e ▸ hreg.1, fun d hd' => e ▸ hreg.2 d hd'⟩
  have hps : (pairs (regularOnly reg diag) q).Pairwise (fun a b => a.1 < b.1) := by
    unfold pairs
    rw [List.pairwise_map]
    rw [List.pairwise_map] at hsr
    exact hsr
  have hmem : (c.cycle, c.val q) ∈ pairs (regularOnly reg diag) q :=
    List.mem_map.2 ⟨c, mem_regular.2 ⟨hc, hcr⟩, rfl⟩
  have hat := atCycle c.cycle (c.val q) (pairs (regularOnly reg diag) q) 0 hps hmem
  rw [throughput_eq, hat, hcv] at hp
  simp only [Option.map_none, Option.some.injEq] at hp
  intro o hout
  obtain ⟨d, -, rfl⟩ := List.mem_map.1 hout
  rw [← hp]
  exact ⟨rfl, rfl, rfl⟩

/-- **C90**: the table is computed exactly when the regular cycles are interrupted at least once and
a diagnostic of the type comes before some regular cycle -/
theorem C90_accepts (reg : List RegRow) (diag : List DiagRow) (metric type : String) (start interval : Rat)
    (ho : InOrder reg) :
    (∃ out, nx reg diag metric type start interval = .ok out) ↔
    (∃ c, EndsFirstRun reg diag c) ∧
    ∃ d ∈ diag, d.type = type ∧ ∃ r ∈ reg, Regular diag r ∧ d.cycle ≤ r.cycle := by
  have hsr := sorted_regular diag ho
  constructor
  · rintro ⟨out, h⟩
    obtain ⟨g, l, p, hg, -, -, hne, -⟩ := nx_ok h
    obtain ⟨c, hc⟩ := gap_endsRun _ _ hsr hg
    refine ⟨⟨c, (endsRun_iff _ _ _).2 hc⟩, ?_⟩
    obtain ⟨d, hd⟩ := List.exists_mem_of_ne_nil _ hne
    rw [List.mem_filter, decide_eq_true_eq] at hd
    exact ⟨d, hd.1, hd.2⟩
  · rintro ⟨⟨c, hc⟩, d, hd, hrep⟩
    obtain ⟨g, hg, hl, -⟩ := endsRun_gap _ _ hsr ((endsRun_iff _ _ _).1 hc)
    obtain ⟨⟨r, hr, hreg, e⟩, -⟩ := hc
    have hps : (pairs (regularOnly reg diag) (normalizeQty metric)).Pairwise (fun a b => a.1 < b.1) := by
      unfold pairs
      rw [List.pairwise_map]
      rw [List.pairwise_map] at hsr
      exact hsr
    have hat := atCycle r.cycle (r.val (normalizeQty metric)) _ 0 hps (List.mem_map.2 ⟨r, mem_regular.2 ⟨hr, hreg⟩, rfl⟩)
    subst e
    unfold nx
    simp only [rows_eq, hg, hl, throughput_eq, hat]
    rw [if_neg]
    · exact ⟨_, rfl⟩
    · have : d ∈ diag.filter (fun d => decide (Reported reg diag type d)) :=
        List.mem_filter.2 ⟨hd, decide_eq_true_iff.2 hrep⟩
      intro h
      rw [List.isEmpty_iff] at h
      rw [h] at this
      cases this

/-- cycles 0 to 8 with diagnostics at 1, 2, 5 and 6 -/
def sampleReg : List RegRow := (List.range 9).map (fun i => ⟨i, i, fun _ => some (i + 1)⟩)
def sampleDiag : List DiagRow :=
  [⟨1, "reset", some 10, fun _ => some 4⟩, ⟨2, "rpt_1C", some 20, fun _ => some 3⟩,
   ⟨5, "reset", some 50, fun _ => some 3⟩, ⟨6, "rpt_1C", some 60, fun _ => some 2⟩]

example : nx sampleReg sampleDiag "discharge_energy" "rpt_1C" 30 100 = .ok
    [⟨2, some (3 / 4), some 9, some 0, some (4 / 9), 30, 100, some 20⟩,
     ⟨6, some (1 / 2), some 9, some 1, some (10 / 9), 30, 100, some 60⟩] := by
  decide +kernel

example : EndsFirstRun sampleReg sampleDiag 4 ∧ InOrder sampleReg ∧ Companion "discharge_energy" "discharge_energy" :=
  ⟨by unfold EndsFirstRun; decide +kernel, by unfold InOrder; decide +kernel,
    (companion_iff _ _).2 (by decide +kernel)⟩

/-- the same cell without a value in cycle 4 -/
def sampleGap : List RegRow := sampleReg.map (fun r => if r.cycle = 4 then { r with val := fun _ => none } else r)

example : nx sampleGap sampleDiag "discharge_energy" "rpt_1C" 30 100 = .ok
    [⟨2, some (3 / 4), none, some 0, some 0, 30, 100, some 20⟩,
     ⟨6, some (1 / 2), none, some 0, some 0, 30, 100, some 60⟩] := by
  decide +kernel

end Beep.Props.Degradation
