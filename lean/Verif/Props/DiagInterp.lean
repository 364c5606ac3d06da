import Verif.Proof.DiagInterp
import Verif.Props.Diagnostic
/-
C79: the interpolated diagnostic cycles hold the data of each run of a step.
-/
namespace Beep.Props.DiagInterp
open Beep Beep.Pandas Beep.Interp Beep.DiagInterp Beep.Spec.DiagInterp Beep.Spec.CyclesInterp
open Beep.Spec.Diagnostic (Listed NameContains)
open Beep.Steps (Row)

/-- the cycle is listed under a type whose name contains "hppc" -/
def Hppc (d : Dict String (List Int)) (c : Int) : Prop := ∃ t, Listed d c t ∧ NameContains "hppc" t

/-- how a run of cycle `c` is to be interpolated -/
abbrev PlanOf (a : Args) (d : Dict String (List Int)) (c : Int) (run : List Row) :
    String → (Row → Option Rat) → Nat → Rat → Rat → Nat → Prop :=
  Plan a.timeRes a.voltRes a.vDelta a.fallback (Hppc d c) run

theorem collect_sub {α β : Type} {f : α → Except Err (List β)} {as : List α} {out : List β}
    (h : collect f as = .ok out) {a : α} (ha : a ∈ as) {b : List β} (hb : f a = .ok b) :
    ∀ r ∈ b, r ∈ out := by
  induction as generalizing out with
  | nil => cases ha
  | cons x as ih =>
    obtain ⟨b', hb', bs, hbs, rfl⟩ := collect_cons h
    intro r hr
    rcases List.mem_cons.mp ha with rfl | ha
    · rw [hb] at hb'; cases hb'
      exact List.mem_append_left _ hr
    · exact List.mem_append_right _ (ih hbs ha r hr)

theorem unique_append {α : Type} [DecidableEq α] (l m : List α) :
    unique (l ++ m) = unique l ++ (unique m).filter (fun x => decide (x ∉ l)) := by
  induction l with
  | nil => simp [unique]
  | cons a l ih =>
    simp only [List.cons_append, unique, ih, List.filter_append, List.filter_filter]
    congr 2
    apply List.filter_congr
    intro x _
    simp [Bool.decide_and, not_or]

theorem first_split {α : Type} (p : α → Prop) [DecidablePred p] {l : List α} {a : α} (h : a ∈ l) (hp : p a) :
    ∃ pre b post, l = pre ++ b :: post ∧ p b ∧ ∀ q ∈ pre, ¬ p q := by
  induction l with
  | nil => cases h
  | cons x l ih =>
    by_cases hx : p x
    · exact ⟨[], x, l, rfl, hx, by simp⟩
    · have : a ∈ l := by
        rcases List.mem_cons.mp h with rfl | h
        · exact absurd hp hx
        · exact h
      obtain ⟨pre, b, post, rfl, h1, h2⟩ := ih this
      refine ⟨x :: pre, b, post, rfl, h1, ?_⟩
      intro q hq
      rcases List.mem_cons.mp hq with rfl | hq
      · exact hx
      · exact h2 q hq

theorem idxOf_unique {α : Type} [DecidableEq α] [BEq α] [LawfulBEq α] (l m : List α) (x : α) (hn : x ∉ l) :
    (unique (l ++ x :: m)).idxOf x = (unique l).length := by
  rw [unique_append, List.idxOf_append_of_notMem (by rwa [mem_unique]), unique,
    List.filter_cons_of_pos (by simpa using hn), List.idxOf_cons_self, Nat.add_zero]

theorem rank_of {rows : List Row} {r : Row} {s : Int} (hr : r ∈ rows) (hs : r.step = some s) :
    Rank rows s (stepTypeOf rows s) := by
  obtain ⟨pre, b, post, rfl, h1, h2⟩ := first_split (fun r : Row => r.step = some s) hr hs
  refine ⟨pre, b, post, rfl, h1, h2, ?_⟩
  have hn : some s ∉ pre.map Row.step := by
    rw [List.mem_map]
    rintro ⟨q, hq, e⟩
    exact h2 q hq e
  unfold stepTypeOf
  rw [List.map_append, List.map_cons, h1, idxOf_unique _ _ _ hn]
  rw [← List.toFinset_card_of_nodup (nodup_unique _)]
  congr 1
  ext x
  simp [mem_unique]

/-- the selected data of a diagnostic cycle -/
theorem data_rows {cfg : Diagnostic.Config} {raw : List Row} {c : Int} (hc : c ∈ cfg.allIx) :
    cycleRows (raw.filter (fun r => cfg.allIx.contains r.cycle)) c = cycleRows raw c := by
  unfold cycleRows
  rw [List.filter_filter]
  apply List.filter_congr
  intro r _
  by_cases h : r.cycle = c
  · simp [h, hc]
  · simp [h]

/-- the pieces of a successful run -/
theorem pieces {a : Args} {cfg : Diagnostic.Config} {raw : List Row} {out : List DRow}
    (h : interpolateDiagnostic a (some cfg) raw = .ok out) :
    ∃ rows, collect (cycleGroups a cfg (raw.filter (fun r => cfg.allIx.contains r.cycle)))
        (groupKeys ((raw.filter (fun r => cfg.allIx.contains r.cycle)).map Row.cycle)) = .ok rows ∧
      out = sortBy rowLe rows := by
  unfold interpolateDiagnostic at h
  simp only at h
  split at h
  · cases h
  rename_i rows hrows
  split at h
  · cases h
  cases h
  exact ⟨rows, hrows, rfl⟩

theorem mem_keys {cfg : Diagnostic.Config} {raw : List Row} {c : Int} :
    c ∈ groupKeys ((raw.filter (fun r => cfg.allIx.contains r.cycle)).map Row.cycle) ↔
      c ∈ cfg.allIx ∧ ∃ r ∈ raw, r.cycle = c := by
  rw [mem_groupKeys, List.mem_map]
  constructor
  · rintro ⟨r, hr, rfl⟩
    rw [List.mem_filter] at hr
    exact ⟨by simpa using hr.2, r, hr.1, rfl⟩
  · rintro ⟨h1, r, hr, rfl⟩
    exact ⟨r, List.mem_filter.mpr ⟨hr, by simpa using h1⟩, rfl⟩

/-- one group of one cycle, in terms of the raw data -/
theorem group_of {d : Dict String (List Int)} (wf : d.WF) {kw} {cfg : Diagnostic.Config}
    (hcfg : Diagnostic.init d kw = .ok cfg) {c : Int} (hc : c ∈ cfg.allIx) :
    ∃ t, Listed d c t ∧ cfg.typeByIx.get? c = some t ∧ (cfg.hppcIx.contains c = true ↔ Hppc d c) := by
  obtain ⟨t, ht⟩ := (Diagnostic.C02_all d wf kw cfg hcfg c).mp hc
  refine ⟨t, ht, (Diagnostic.C01_lookup d wf kw cfg hcfg c t).mpr ht, ?_⟩
  rw [List.contains_iff_mem, (Diagnostic.C02_special d wf kw cfg hcfg c).1]
  rfl

/-- the rows of a group in a successful result -/
theorem row_group {a : Args} {d : Dict String (List Int)} (wf : d.WF) {kw} {cfg : Diagnostic.Config}
    (hcfg : Diagnostic.init d kw = .ok cfg) {raw : List Row} {out : List DRow}
    (h : interpolateDiagnostic a (some cfg) raw = .ok out) {o : DRow} (ho : o ∈ out) :
    ∃ c t s k run b, c ∈ cfg.allIx ∧ Listed d c t ∧ (s, k) ∈ keysOf (tagged raw c) ∧
      run = groupOf (tagged raw c) (s, k) ∧
      groupRows a (cfg.hppcIx.contains c) c t (stepTypeOf (cycleRows raw c) s) (s, k) run = .ok b ∧
      o ∈ b ∧ (∀ r ∈ b, r ∈ out) := by
  obtain ⟨rows, hrows, rfl⟩ := pieces h
  rw [mem_sortBy] at ho
  obtain ⟨c, hc, b1, hb1, hob1⟩ := collect_mem hrows ho
  have hcs := collect_sub hrows hc hb1
  obtain ⟨hall, _⟩ := mem_keys.mp hc
  obtain ⟨t, ht, hget, _⟩ := group_of wf hcfg hall
  have hb1' := hb1
  unfold cycleGroups at hb1'
  obtain ⟨⟨s, k⟩, hk, b, hb, hob⟩ := collect_mem hb1' hob1
  have hks := collect_sub hb1' hk hb
  rw [hget] at hb
  have ht' : tagged (raw.filter (fun r => cfg.allIx.contains r.cycle)) c = tagged raw c := by
    rw [tagged_eq, tagged_eq, data_rows hall]
  rw [ht'] at hk hb
  refine ⟨c, t, s, k, _, b, hall, ht, hk, rfl, ?_, hob, ?_⟩
  · have := data_rows (raw := raw) hall
    unfold cycleRows at this ⊢
    rw [← this]
    exact hb
  · intro r hr
    rw [mem_sortBy]
    exact hcs r (hks r hr)

/-- the result of one group whose rows are a run -/
theorem group_plan {a : Args} {hp : Bool} {c : Int} {t : String} {st : Nat} {key : Int × Nat}
    {run : List Row} {b : List DRow} {o : DRow} (hb : groupRows a hp c t st key run = .ok b) (ho : o ∈ b) :
    ∃ axis ax lo hi n, Plan a.timeRes a.voltRes a.vDelta a.fallback (hp = true) run axis ax (axisIdx axis) lo hi n ∧
      lo ≠ hi ∧ 2 ≤ n ∧ GroupOut run axis ax lo hi n b ∧
      ∀ o ∈ b, o.cycle = c ∧ o.cycleType = t ∧ o.step = key.1 ∧ o.counter = key.2 ∧ o.stepType = st := by
  rcases hs : stepAxis a hp run with e | ⟨axis, ⟨lo, hi⟩, n⟩
  · unfold groupRows at hb
    rw [hs] at hb; cases hb
  · obtain ⟨ax, hax, hplan⟩ := stepAxis_plan hs
    obtain ⟨h1, h2, h3⟩ := groupRows_eq (c := c) (ct := t) (st := st) (key := key) hs hax
    cases hg : hasGap axis run with
    | true => rw [h1 hg] at hb; cases hb
    | false =>
      by_cases hd : lo = hi ∨ n < 2
      · rw [h2 hg hd] at hb; cases hb; cases ho
      · rw [not_or] at hd
        obtain ⟨out, he, hg', hl⟩ := h3 hg hd.1 (not_lt.mp hd.2)
        rw [hb] at he; cases he
        exact ⟨axis, ax, lo, hi, n, hplan, hd.1, not_lt.mp hd.2, hg', hl⟩

/-- C79, what every row is: it belongs to one run of consecutive rows with one step index in a
cycle of the diagnostic configuration, and carries the cycle's type, the step, the number of
the run in its cycle and the rank of the step in its cycle.  The run is interpolated on time if
its voltages span less than the given minimum, otherwise on voltage, at `n` evenly spaced
points; the row sits at point `i`, and its other values are the piecewise linear interpolation
of the run's own readings.  The slopes are those between this point and the one before, and
missing at the first point. -/
theorem C79_rows (a : Args) (d : Dict String (List Int)) (wf : d.WF) (kw) (cfg : Diagnostic.Config)
    (hcfg : Diagnostic.init d kw = .ok cfg) (raw : List Row) (out : List DRow)
    (h : interpolateDiagnostic a (some cfg) raw = .ok out) (o : DRow) (ho : o ∈ out)
    (runs : List (List Row)) (hr : IsRuns (cycleRows raw o.cycle) runs) :
    ∃ run axis ax j lo hi n i,
      Listed d o.cycle o.cycleType ∧ 1 ≤ o.counter ∧ runs[o.counter - 1]? = some run ∧
      (∀ r ∈ run, r.step = some o.step) ∧ Rank (cycleRows raw o.cycle) o.step o.stepType ∧
      PlanOf a d o.cycle run axis ax j lo hi n ∧ lo ≠ hi ∧ i < n ∧
      o.vals[j]? = some (some (gridPoint lo hi n i)) ∧
      (∀ r, run.head? = some r → o.vals.length = (cells r).length) ∧
      (DistinctOn ax run → ∀ j' w, j' ≠ j → o.vals[j']? = some w →
        Interpolated ax run j' (gridPoint lo hi n i) w) ∧
      (i = 0 → o.dchgSlope = none ∧ o.chgSlope = none) ∧
      (∀ i', i = i' + 1 → ∃ o' ∈ out, o'.cycle = o.cycle ∧ o'.counter = o.counter ∧
        o'.vals[j]? = some (some (gridPoint lo hi n i')) ∧
        Slope (o.vals.getD 3 none) (o'.vals.getD 3 none) (o.vals.getD 1 none) (o'.vals.getD 1 none) o.dchgSlope ∧
        Slope (o.vals.getD 2 none) (o'.vals.getD 2 none) (o.vals.getD 1 none) (o'.vals.getD 1 none) o.chgSlope) := by
  obtain ⟨c, t, s, k, run, b, hall, ht, hk, hrun, hb, hob, hsub⟩ := row_group wf hcfg h ho
  obtain ⟨axis, ax, lo, hi, n, hplan, hne, hn, hg, hl⟩ := group_plan hb hob
  obtain ⟨e1, e2, e3, e4, e5⟩ := hl o hob
  simp only at e3 e4
  rw [e1] at hr ⊢
  obtain ⟨hk1, hkr, hks⟩ := groupOf_run hr hk
  rw [← hrun] at hkr hks
  obtain ⟨t', ht', hget, hh⟩ := group_of wf hcfg hall
  obtain ⟨i, hi', hoi⟩ := List.getElem_of_mem hob
  have hoi' : b[i]? = some o := by rw [List.getElem?_eq_getElem hi', hoi]
  have hin : i < n := by rw [← hg.len]; exact hi'
  rw [hh] at hplan
  obtain ⟨r0, hr0⟩ : ∃ r, r ∈ run := by
    match run, hr.nonempty run (List.mem_of_getElem? hkr) with
    | [], h => exact absurd rfl h
    | r :: _, _ => exact ⟨r, by simp⟩
  have hr0c : r0 ∈ cycleRows raw c := by
    rw [← hr.join, List.mem_flatten]
    exact ⟨run, List.mem_of_getElem? hkr, hr0⟩
  refine ⟨run, axis, ax, axisIdx axis, lo, hi, n, i, by rw [e2]; exact ht, by omega, by rw [e4]; exact hkr,
    by rw [e3]; exact hks, by rw [e3, e5]; exact rank_of hr0c (hks r0 hr0), hplan, hne, hin, hg.point i o hoi', ?_,
    hg.value i o hoi', ?_, ?_⟩
  · intro r hrr
    rw [hg.wide i o hoi']
    match run, hrr with
    | r' :: l, hrr =>
      cases hrr
      exact Props.CyclesInterp.width_rowsOf _ r l rfl
  · rintro rfl
    exact hg.first o hoi'
  · rintro i' rfl
    have hi2 : i' < b.length := by omega
    refine ⟨b[i'], hsub _ (List.getElem_mem _), ?_, ?_, ?_, ?_⟩
    · exact (hl _ (List.getElem_mem _)).1
    · rw [(hl _ (List.getElem_mem _)).2.2.2.1, e4]
    · exact hg.point i' _ (List.getElem?_eq_getElem hi2)
    · exact hg.next i' _ _ (List.getElem?_eq_getElem hi2) hoi'

theorem nodup_keysOf (t : List (Row × Nat)) : (keysOf t).Nodup :=
  (sortBy_perm _ _).nodup_iff.mpr (nodup_unique _)

theorem groupRows_labels {a : Args} {hp : Bool} {c : Int} {t : String} {st : Nat} {key : Int × Nat}
    {run : List Row} {b : List DRow} (hb : groupRows a hp c t st key run = .ok b) :
    ∀ o ∈ b, o.cycle = c ∧ o.counter = key.2 := by
  intro o ho
  obtain ⟨_, _, _, _, _, _, _, _, _, hl⟩ := group_plan hb ho
  exact ⟨(hl o ho).1, (hl o ho).2.2.2.1⟩

theorem cycleGroups_labels {a : Args} {cfg : Diagnostic.Config} {raw : List Row} {c : Int} {b : List DRow}
    (hb : cycleGroups a cfg raw c = .ok b) : ∀ o ∈ b, o.cycle = c := by
  intro o ho
  unfold cycleGroups at hb
  obtain ⟨key, _, b', hb', hob⟩ := collect_mem hb ho
  split at hb'
  · cases hb'
  · exact (groupRows_labels hb' o hob).1

/-- the group of a run -/
theorem run_group {raw : List Row} {c s : Int} {k : Nat} {runs : List (List Row)} {run : List Row} {r : Row}
    (hr : IsRuns (cycleRows raw c) runs) (hk : runs[k]? = some run) (hm : r ∈ run) (hs : r.step = some s) :
    (s, k + 1) ∈ keysOf (tagged raw c) ∧ groupOf (tagged raw c) (s, k + 1) = run ∧
      ∀ key ∈ keysOf (tagged raw c), key.2 = k + 1 → key = (s, k + 1) := by
  have h1 := run_key hr (j := k + 1) (by omega) (by simpa using hk) hm hs
  have h2 := groupOf_run hr h1
  have e : groupOf (tagged raw c) (s, k + 1) = run := by
    have := h2.2.1
    rw [Nat.add_sub_cancel, hk] at this
    exact (Option.some.inj this).symm
  refine ⟨h1, e, ?_⟩
  rintro ⟨s', k'⟩ hk' he
  simp only at he
  subst he
  have h3 := groupOf_run hr hk'
  have e' : groupOf (tagged raw c) (s', k + 1) = run := by
    have := h3.2.1
    rw [Nat.add_sub_cancel, hk] at this
    exact (Option.some.inj this).symm
  have := h3.2.2 r (by rw [e']; exact hm)
  rw [hs] at this
  cases this
  rfl

/-- C79, nothing is lost or repeated: a run with a step index in a diagnostic cycle is present
with exactly one row for each of its `n` grid points, unless its grid is a single point, in which
case it is left out. -/
theorem C79_count (a : Args) (d : Dict String (List Int)) (wf : d.WF) (kw) (cfg : Diagnostic.Config)
    (hcfg : Diagnostic.init d kw = .ok cfg) (raw : List Row) (out : List DRow)
    (h : interpolateDiagnostic a (some cfg) raw = .ok out) (c : Int) (t : String) (hc : Listed d c t)
    (runs : List (List Row)) (hr : IsRuns (cycleRows raw c) runs) (k : Nat) (run : List Row)
    (hk : runs[k]? = some run) (r : Row) (hm : r ∈ run) (s : Int) (hs : r.step = some s)
    (axis ax j lo hi n) (hplan : PlanOf a d c run axis ax j lo hi n) :
    out.countP (fun o => decide (o.cycle = c) && decide (o.counter = k + 1)) =
        (if lo ≠ hi ∧ 2 ≤ n then n else 0) ∧
      (lo ≠ hi ∧ 2 ≤ n → ∀ i < n, ∃ o ∈ out, o.cycle = c ∧ o.counter = k + 1 ∧
        o.vals[j]? = some (some (gridPoint lo hi n i))) := by
  obtain ⟨rows, hrows, rfl⟩ := pieces h
  rw [(sortBy_perm rowLe rows).countP_eq]
  have hall : c ∈ cfg.allIx := (Diagnostic.C02_all d wf kw cfg hcfg c).mpr ⟨t, hc⟩
  have hrc : r ∈ cycleRows raw c := by
    rw [← hr.join, List.mem_flatten]
    exact ⟨run, List.mem_of_getElem? hk, hm⟩
  have hrc' := List.mem_filter.mp hrc
  have hkey : c ∈ groupKeys ((raw.filter (fun r => cfg.allIx.contains r.cycle)).map Row.cycle) :=
    mem_keys.mpr ⟨hall, r, hrc'.1, by simpa using hrc'.2⟩
  obtain ⟨b1, hb1, e1⟩ := collect_countP (p := fun o : DRow => decide (o.cycle = c) && decide (o.counter = k + 1))
    hrows (nodup_groupKeys _) c hkey (by
      intro c' _ hne b hb
      rw [List.countP_eq_zero]
      intro o ho
      rw [cycleGroups_labels hb o ho]
      simp [hne])
  have hsub1 := collect_sub hrows hkey hb1
  obtain ⟨t', ht', hget, hh⟩ := group_of wf hcfg hall
  have ht2 : tagged (raw.filter (fun r => cfg.allIx.contains r.cycle)) c = tagged raw c := by
    rw [tagged_eq, tagged_eq, data_rows hall]
  obtain ⟨g1, g2, g3⟩ := run_group hr hk hm hs
  have hb1' := hb1
  unfold cycleGroups at hb1'
  rw [ht2] at hb1'
  simp only [hget] at hb1'
  obtain ⟨b2, hb2, e2⟩ := collect_countP
    (p := fun o : DRow => decide (o.cycle = c) && decide (o.counter = k + 1))
    hb1' (nodup_keysOf _) (s, k + 1) g1 (by
      intro key hkm hne b hb
      rw [List.countP_eq_zero]
      intro o ho
      rw [(groupRows_labels hb o ho).2]
      have : key.2 ≠ k + 1 := fun e => hne (g3 key hkm e)
      simp [this])
  have hsub2 := collect_sub hb1' g1 hb2
  rw [g2] at hb2
  rw [e1, e2]
  have hplan' : Plan a.timeRes a.voltRes a.vDelta a.fallback (cfg.hppcIx.contains c = true) run axis ax j lo hi n := by
    rw [hh]; exact hplan
  obtain ⟨hax, rfl⟩ := plan_axis hplan
  have hst := stepAxis_of_plan hplan'
  obtain ⟨x1, x2, x3⟩ := groupRows_eq (c := c) (ct := t')
    (st := stepTypeOf ((raw.filter (fun r => cfg.allIx.contains r.cycle)).filter (fun r => r.cycle = c)) s)
    (key := (s, k + 1)) hst hax
  cases hg : hasGap axis run with
  | true => rw [x1 hg] at hb2; cases hb2
  | false =>
    by_cases hd : lo ≠ hi ∧ 2 ≤ n
    · obtain ⟨out, he, ho, hl⟩ := x3 hg hd.1 hd.2
      rw [hb2] at he; cases he
      rw [if_pos hd]
      refine ⟨?_, ?_⟩
      · rw [← ho.len, List.countP_eq_length]
        intro o hoo
        obtain ⟨l1, _, _, l4, _⟩ := hl o hoo
        simp [l1, l4]
      · intro _ i hi
        have hlt : i < b2.length := by rw [ho.len]; exact hi
        refine ⟨b2[i], ?_, (hl _ (List.getElem_mem _)).1, (hl _ (List.getElem_mem _)).2.2.2.1,
          ho.point i _ (List.getElem?_eq_getElem hlt)⟩
        rw [mem_sortBy]
        exact hsub1 _ (hsub2 _ (List.getElem_mem _))
    · rw [if_neg hd]
      have hd' : lo = hi ∨ n < 2 := by
        by_cases e : lo = hi
        · exact Or.inl e
        · right
          by_contra hh
          exact hd ⟨e, not_lt.mp hh⟩
      rw [x2 hg hd'] at hb2
      cases hb2
      exact ⟨rfl, fun h => absurd h hd⟩

theorem leN_total (a b : Option Rat) : leN a b = true ∨ leN b a = true := by
  cases a <;> cases b <;> simp [leN, le_total]

theorem leN_trans {a b c : Option Rat} (h1 : leN a b = true) (h2 : leN b c = true) : leN a c = true := by
  cases a <;> cases b <;> cases c <;> simp_all [leN]
  exact le_trans h1 h2

/-- C79, order: the rows are sorted by cycle, then by run, then by test time, missing times
last. -/
theorem C79_sorted (a : Args) (diag : Option Diagnostic.Config) (raw : List Row) (out : List DRow)
    (h : interpolateDiagnostic a diag raw = .ok out) :
    out.Pairwise (fun p q => p.cycle < q.cycle ∨ (p.cycle = q.cycle ∧ (p.counter < q.counter ∨
      (p.counter = q.counter ∧ ∀ y, q.vals.getD 0 none = some y → ∃ x, p.vals.getD 0 none = some x ∧ x ≤ y)))) := by
  cases diag with
  | none => cases h
  | some cfg =>
    obtain ⟨rows, _, rfl⟩ := pieces h
    have hs := pairwise_sortBy rowLe (by
      intro p q r
      unfold rowLe
      simp only [Bool.or_eq_true, Bool.and_eq_true, decide_eq_true_eq]
      intro h1 h2
      rcases h1 with h1 | ⟨h1, h1'⟩
      · left
        rcases h2 with h2 | ⟨h2, _⟩ <;> omega
      · rcases h2 with h2 | ⟨h2, h2'⟩
        · left; omega
        · right
          refine ⟨by omega, ?_⟩
          rcases h1' with h1' | ⟨h1', l1⟩
          · left
            rcases h2' with h2' | ⟨h2', _⟩ <;> omega
          · rcases h2' with h2' | ⟨h2', l2⟩
            · left; omega
            · exact Or.inr ⟨by omega, leN_trans l1 l2⟩) (by
      intro p q
      unfold rowLe
      have := leN_total (p.vals.getD 0 none) (q.vals.getD 0 none)
      simp only [Bool.or_eq_true, Bool.and_eq_true, decide_eq_true_eq]
      rcases lt_trichotomy p.cycle q.cycle with h | h | h
      · simp [h]
      · rcases lt_trichotomy p.counter q.counter with h' | h' | h'
        · simp [h, h']
        · simp only [h, h', lt_irrefl, true_and, false_or]; exact this
        · simp [h, h']
      · simp [h]) rows
    refine hs.imp ?_
    intro p q h
    unfold rowLe at h
    simp only [Bool.or_eq_true, Bool.and_eq_true, decide_eq_true_eq] at h
    rcases h with h | ⟨h, h' | ⟨h', l⟩⟩
    · exact Or.inl h
    · exact Or.inr ⟨h, Or.inl h'⟩
    · refine Or.inr ⟨h, Or.inr ⟨h', ?_⟩⟩
      intro y hy
      rw [hy] at l
      cases hx : p.vals.getD 0 none with
      | none => rw [hx] at l; cases l
      | some x => rw [hx] at l; exact ⟨x, rfl, by simpa [leN] using l⟩

/-- without a diagnostic configuration the call is refused -/
theorem C79_unconfigured (a : Args) (raw : List Row) :
    interpolateDiagnostic a none raw = .error .valueError := rfl

/-- the run can be interpolated: it has a plan, and no row lacks the value it is interpolated on -/
def Usable (a : Args) (d : Dict String (List Int)) (c : Int) (run : List Row) : Prop :=
  ∃ axis ax j lo hi n, PlanOf a d c run axis ax j lo hi n ∧ ∀ r ∈ run, ax r ≠ none

theorem groupRows_ok_iff {a : Args} {hp : Bool} {c : Int} {t : String} {st : Nat} {key : Int × Nat} {run : List Row} :
    (∃ b, groupRows a hp c t st key run = .ok b) ↔
      ∃ axis ax j lo hi n, Plan a.timeRes a.voltRes a.vDelta a.fallback (hp = true) run axis ax j lo hi n ∧
        ∀ r ∈ run, ax r ≠ none := by
  constructor
  · rintro ⟨b, hb⟩
    rcases hs : stepAxis a hp run with e | ⟨axis, ⟨lo, hi⟩, n⟩
    · unfold groupRows at hb
      rw [hs] at hb; cases hb
    · obtain ⟨ax, hax, hplan⟩ := stepAxis_plan hs
      obtain ⟨h1, _, _⟩ := groupRows_eq (c := c) (ct := t) (st := st) (key := key) hs hax
      refine ⟨axis, ax, _, lo, hi, n, hplan, ?_⟩
      intro r hr he
      rw [h1 ((Props.CyclesInterp.hasGap_iff hax run).mpr ⟨r, hr, he⟩)] at hb
      cases hb
  · rintro ⟨axis, ax, j, lo, hi, n, hplan, hall⟩
    have hs := stepAxis_of_plan hplan
    obtain ⟨hax, rfl⟩ := plan_axis hplan
    obtain ⟨_, h2, h3⟩ := groupRows_eq (c := c) (ct := t) (st := st) (key := key) hs hax
    have hg : hasGap axis run = false := by
      rw [← Bool.not_eq_true]
      intro hg
      obtain ⟨r, hr, he⟩ := (Props.CyclesInterp.hasGap_iff hax run).mp hg
      exact hall r hr he
    by_cases hd : lo = hi ∨ n < 2
    · exact ⟨_, h2 hg hd⟩
    · rw [not_or] at hd
      obtain ⟨out, he, _⟩ := h3 hg hd.1 (not_lt.mp hd.2)
      exact ⟨out, he⟩

theorem accepts_groups {a : Args} {d : Dict String (List Int)} (wf : d.WF) {kw} {cfg : Diagnostic.Config}
    (hcfg : Diagnostic.init d kw = .ok cfg) (raw : List Row) :
    (∃ rows, collect (cycleGroups a cfg (raw.filter (fun r => cfg.allIx.contains r.cycle)))
        (groupKeys ((raw.filter (fun r => cfg.allIx.contains r.cycle)).map Row.cycle)) = .ok rows) ↔
      ∀ c t, Listed d c t → ∀ runs, IsRuns (cycleRows raw c) runs → ∀ run ∈ runs,
        (∃ r ∈ run, r.step ≠ none) → Usable a d c run := by
  rw [Props.CyclesInterp.collect_ok_iff]
  constructor
  · intro h c t hc runs hr run hrun hstep
    obtain ⟨r, hm, hs⟩ := hstep
    obtain ⟨s, hs⟩ := Option.ne_none_iff_exists'.mp hs
    obtain ⟨k, hk, e⟩ := List.getElem_of_mem hrun
    have hk' : runs[k]? = some run := by rw [List.getElem?_eq_getElem hk, e]
    have hall : c ∈ cfg.allIx := (Diagnostic.C02_all d wf kw cfg hcfg c).mpr ⟨t, hc⟩
    have hrc : r ∈ cycleRows raw c := by
      rw [← hr.join, List.mem_flatten]
      exact ⟨run, hrun, hm⟩
    have hrc' := List.mem_filter.mp hrc
    obtain ⟨b, hb⟩ := h c (mem_keys.mpr ⟨hall, r, hrc'.1, by simpa using hrc'.2⟩)
    obtain ⟨t', ht', hget, hh⟩ := group_of wf hcfg hall
    have ht2 : tagged (raw.filter (fun r => cfg.allIx.contains r.cycle)) c = tagged raw c := by
      rw [tagged_eq, tagged_eq, data_rows hall]
    unfold cycleGroups at hb
    rw [ht2] at hb
    simp only [hget] at hb
    obtain ⟨g1, g2, _⟩ := run_group hr hk' hm hs
    have := Props.CyclesInterp.collect_ok_iff.mp ⟨b, hb⟩ _ g1
    rw [g2, groupRows_ok_iff] at this
    unfold Usable
    rw [hh] at this
    exact this
  · intro h c hc
    obtain ⟨hall, _⟩ := mem_keys.mp hc
    obtain ⟨t, ht, hget, hh⟩ := group_of wf hcfg hall
    have ht2 : tagged (raw.filter (fun r => cfg.allIx.contains r.cycle)) c = tagged raw c := by
      rw [tagged_eq, tagged_eq, data_rows hall]
    unfold cycleGroups
    rw [ht2]
    simp only [hget]
    rw [Props.CyclesInterp.collect_ok_iff]
    rintro ⟨s, k⟩ hk
    have hr := runs_isRuns (cycleRows raw c)
    obtain ⟨hk1, hkr, hks⟩ := groupOf_run hr hk
    rw [groupRows_ok_iff, hh]
    have hrun := List.mem_of_getElem? hkr
    refine h c t ht _ hr _ hrun ?_
    cases hg : groupOf (tagged raw c) (s, k) with
    | nil => exact absurd hg (hr.nonempty _ hrun)
    | cons r l =>
      exact ⟨r, by simp, by rw [hks r (by rw [hg]; simp)]; simp⟩

/-- C79, which data are accepted: every run with a step index in a diagnostic cycle must have a
voltage, and must have the value it is interpolated on in each of its rows; and at least one run
must span more than one value of it. -/
theorem C79_accepts (a : Args) (d : Dict String (List Int)) (wf : d.WF) (kw) (cfg : Diagnostic.Config)
    (hcfg : Diagnostic.init d kw = .ok cfg) (raw : List Row) :
    (∃ out, interpolateDiagnostic a (some cfg) raw = .ok out) ↔
      (∀ c t, Listed d c t → ∀ runs, IsRuns (cycleRows raw c) runs → ∀ run ∈ runs,
        (∃ r ∈ run, r.step ≠ none) → Usable a d c run) ∧
      ∃ c t runs run, Listed d c t ∧ IsRuns (cycleRows raw c) runs ∧ run ∈ runs ∧ (∃ r ∈ run, r.step ≠ none) ∧
        ∃ axis ax j lo hi n, PlanOf a d c run axis ax j lo hi n ∧ lo ≠ hi ∧ 2 ≤ n := by
  rw [← accepts_groups wf hcfg raw]
  constructor
  · rintro ⟨out, h⟩
    obtain ⟨rows, hrows, he⟩ := pieces h
    refine ⟨⟨rows, hrows⟩, ?_⟩
    obtain ⟨o, ho⟩ : ∃ o, o ∈ out := by
      cases out with
      | cons o l => exact ⟨o, by simp⟩
      | nil =>
        exfalso
        have hn : rows = [] := by
          have := length_sortBy rowLe rows
          rw [← he] at this
          exact List.length_eq_zero_iff.mp this.symm
        subst hn
        unfold interpolateDiagnostic at h
        simp only at h
        rw [hrows] at h
        cases h
    obtain ⟨c, t, s, k, run', b, hall, ht, hk', hrun', hb, hob, hsub⟩ := row_group wf hcfg h ho
    obtain ⟨axis', ax', lo', hi', n', hplan', hne', hn', hg', hl'⟩ := group_plan hb hob
    obtain ⟨e1, e2, e3, e4, e5⟩ := hl' o hob
    obtain ⟨_, hkr, hks⟩ := groupOf_run (runs_isRuns (cycleRows raw c)) hk'
    rw [← hrun'] at hkr hks
    have hrun'' := List.mem_of_getElem? hkr
    obtain ⟨t', ht', hget, hh⟩ := group_of wf hcfg hall
    rw [hh] at hplan'
    refine ⟨c, t, _, run', ht, runs_isRuns _, hrun'', ?_, axis', ax', _, lo', _, n', hplan', hne', hn'⟩
    cases hg : run' with
    | nil => exact absurd hg ((runs_isRuns _).nonempty _ hrun'')
    | cons r l => exact ⟨r, by simp, by rw [hks r (by rw [hg]; simp)]; simp⟩
  · rintro ⟨⟨rows, hrows⟩, c, t, runs, run, hc, hr, hrun, ⟨r, hm, hs⟩, axis, ax, j, lo, hi, n, hp, hne, hn⟩
    cases hre : rows with
    | cons o l =>
      refine ⟨sortBy rowLe rows, ?_⟩
      unfold interpolateDiagnostic
      simp only
      rw [hrows, hre]
      rfl
    | nil =>
      exfalso
      subst hre
      obtain ⟨s, hs⟩ := Option.ne_none_iff_exists'.mp hs
      obtain ⟨k, hk, e⟩ := List.getElem_of_mem hrun
      have hk' : runs[k]? = some run := by rw [List.getElem?_eq_getElem hk, e]
      have hall : c ∈ cfg.allIx := (Diagnostic.C02_all d wf kw cfg hcfg c).mpr ⟨t, hc⟩
      have hrc : r ∈ cycleRows raw c := by
        rw [← hr.join, List.mem_flatten]
        exact ⟨run, hrun, hm⟩
      have hrc' := List.mem_filter.mp hrc
      have hkey := mem_keys.mpr ⟨hall, r, hrc'.1, by simpa using hrc'.2⟩
      obtain ⟨b, hb⟩ := Props.CyclesInterp.collect_ok_iff.mp ⟨_, hrows⟩ _ hkey
      have hs1 := collect_sub hrows hkey hb
      obtain ⟨t', ht', hget, hh⟩ := group_of wf hcfg hall
      have ht2 : tagged (raw.filter (fun r => cfg.allIx.contains r.cycle)) c = tagged raw c := by
        rw [tagged_eq, tagged_eq, data_rows hall]
      unfold cycleGroups at hb
      rw [ht2] at hb
      simp only [hget] at hb
      obtain ⟨g1, g2, _⟩ := run_group hr hk' hm hs
      obtain ⟨b2, hb2⟩ := Props.CyclesInterp.collect_ok_iff.mp ⟨b, hb⟩ _ g1
      have hs2 := collect_sub hb g1 hb2
      rw [g2] at hb2
      have hp' : Plan a.timeRes a.voltRes a.vDelta a.fallback (cfg.hppcIx.contains c = true) run axis ax j lo hi n := by
        rw [hh]; exact hp
      obtain ⟨hax, rfl⟩ := plan_axis hp
      obtain ⟨x1, x2, x3⟩ := groupRows_eq (c := c) (ct := t')
        (st := stepTypeOf ((raw.filter (fun r => cfg.allIx.contains r.cycle)).filter (fun r => r.cycle = c)) s)
        (key := (s, k + 1)) (stepAxis_of_plan hp') hax
      cases hg : hasGap axis run with
      | true => rw [x1 hg] at hb2; cases hb2
      | false =>
        obtain ⟨out, he, ho, _⟩ := x3 hg hne hn
        rw [hb2] at he; cases he
        have hlen : 0 < b2.length := by rw [ho.len]; omega
        have := hs1 _ (hs2 _ (List.getElem_mem hlen))
        cases this

/-- a diagnostic configuration with an HPPC and a low-rate cycle -/
def exDict : Dict String (List Int) := [("hppc", [1]), ("rpt_0.2C", [3])]

def exRow (c s : Int) (t v q p : Rat) : Row :=
  { cycle := c, step := some s, charge := some q, discharge := some p, time := some t, voltage := some v }

/-- cycle 1: step 5, a rest (6), step 5 again; cycle 2 is no diagnostic; cycle 3: one discharge -/
def exRaw : List Row :=
  [exRow 1 5 0 3 0 0, exRow 1 5 10 4 2 0, exRow 1 6 11 4 2 0, exRow 1 6 13 4 2 0,
   exRow 1 5 14 4 2 0, exRow 1 5 16 2 2 1, exRow 2 5 17 2 0 0, exRow 2 5 18 3 1 0,
   exRow 3 9 20 4 0 0, exRow 3 9 30 3 0 4]

def exArgs : Args := { timeRes := 2, voltRes := 3, fallback := some (3, 5) }

example : exDict.WF := by decide +kernel

/-- the two runs of step 5 are kept apart, the rest is interpolated on time, the low-rate cycle
over the given range; beyond the data the last value is held -/
example : (match Diagnostic.init exDict [] with
    | .ok cfg => interpolateDiagnostic exArgs (some cfg) exRaw
    | .error e => .error e) = .ok [
      ⟨1, "hppc", 5, 1, 0, [some 0, some 3, some 0, some 0], none, none⟩,
      ⟨1, "hppc", 5, 1, 0, [some 5, some (7/2), some 1, some 0], some 0, some 2⟩,
      ⟨1, "hppc", 5, 1, 0, [some 10, some 4, some 2, some 0], some 0, some 2⟩,
      ⟨1, "hppc", 6, 2, 1, [some 11, some 4, some 2, some 0], none, none⟩,
      ⟨1, "hppc", 6, 2, 1, [some 13, some 4, some 2, some 0], none, none⟩,
      ⟨1, "hppc", 5, 3, 0, [some 14, some 4, some 2, some 0], some (-1/2), some 0⟩,
      ⟨1, "hppc", 5, 3, 0, [some 15, some 3, some 2, some (1/2)], some (-1/2), some 0⟩,
      ⟨1, "hppc", 5, 3, 0, [some 16, some 2, some 2, some 1], none, none⟩,
      ⟨3, "rpt_0.2C", 9, 1, 0, [some 20, some 4, some 0, some 0], some (-4), some 0⟩,
      ⟨3, "rpt_0.2C", 9, 1, 0, [some 20, some 5, some 0, some 0], some 0, some 0⟩,
      ⟨3, "rpt_0.2C", 9, 1, 0, [some 30, some 3, some 0, some 4], none, none⟩] := by
  decide +kernel

/-- a missing voltage in a run interpolated on voltage is refused -/
example : (match Diagnostic.init exDict [] with
    | .ok cfg => interpolateDiagnostic exArgs (some cfg) ({ exRow 1 5 0 3 0 0 with voltage := none } :: exRaw)
    | .error e => .error e) = .error .notImplemented := by
  decide +kernel

/-- a diagnostic of rests without duration has nothing to return -/
example : (match Diagnostic.init exDict [] with
    | .ok cfg => interpolateDiagnostic exArgs (some cfg) [exRow 1 5 0 3 0 0]
    | .error e => .error e) = .error .valueError := by
  decide +kernel

end Beep.Props.DiagInterp
