import Verif.Proof.Threshold
import Verif.Props.Degradation
/-
C91 (distance to the degradation threshold), C92 (kink filter).
-/
namespace Beep.Props.Threshold
open Beep Pandas Degradation Spec.Degradation
open Beep.Proof.Degradation Beep.Proof.Threshold

/-! ### the columns -/

theorem axis_of_column {name : String} {f : TRow → Rat} (h : Column name f) : axisOf name = some f := by
  unfold Column at h
  rcases h with ⟨rfl, rfl⟩ | ⟨rfl, rfl⟩ | ⟨rfl, rfl⟩ | ⟨rfl, rfl⟩ | ⟨rfl, rfl⟩ | ⟨rfl, rfl⟩ | ⟨rfl, rfl⟩ | ⟨rfl, rfl⟩ <;> rfl

theorem columns_ok {as : List String} (hv : ∀ a ∈ as, ∃ g, Column a g) : ∃ fs, collectAxes as = .ok fs := by
  induction as with
  | nil => exact ⟨[], rfl⟩
  | cons a as ih =>
    obtain ⟨fs, hfs⟩ := ih (fun b hb => hv b (List.mem_cons_of_mem _ hb))
    obtain ⟨g, hg⟩ := hv a (by simp)
    exact ⟨(a, g) :: fs, by simp [collectAxes, axis_of_column hg, hfs]⟩

theorem collectAxes_ok : ∀ (as : List String) (axs : List (String × (TRow → Rat))), collectAxes as = .ok axs →
    axs.map Prod.fst = as ∧ ∀ p ∈ axs, axisOf p.1 = some p.2
  | [], axs, h => by
    cases h
    simp
  | a :: as, axs, h => by
    unfold collectAxes at h
    split at h
    · cases h
    · rename_i f hf
      split at h
      · cases h
      · rename_i fs hfs
        cases h
        obtain ⟨h1, h2⟩ := collectAxes_ok as fs hfs
        refine ⟨by simp [h1], fun p hp => ?_⟩
        rcases List.mem_cons.1 hp with rfl | hp
        · exact hf
        · exact h2 p hp

theorem label_eq (h : Hyper) (axis : String) : targetName h axis = label h axis := by
  unfold targetName label
  simp [String.join]

theorem label_inj {h : Hyper} {a b : String} (e : label h a = label h b) : a = b := by
  unfold label at e
  have := congrArg String.toList e
  simp only [String.toList_append] at this
  have := List.append_cancel_left this
  exact String.toList_inj.1 this

/-- columns written one after the other -/
def written (h : Hyper) (l : List (String × Option Rat)) (d : Dict String (Option Rat)) : Dict String (Option Rat) :=
  l.foldl (fun d p => Dict.set d (label h p.1) p.2) d

theorem written_other {h : Hyper} {k : String} : ∀ (l : List (String × Option Rat)) (d : Dict String (Option Rat)),
    (∀ p ∈ l, label h p.1 ≠ k) → (written h l d).get? k = d.get? k
  | [], d, _ => rfl
  | p :: l, d, hn => by
    unfold written
    rw [List.foldl_cons]
    have := written_other (h := h) (k := k) l (Dict.set d (label h p.1) p.2) (fun q hq => hn q (List.mem_cons_of_mem _ hq))
    unfold written at this
    rw [this, Dict.get?_set_ne]
    exact (hn p (by simp)).symm

theorem written_get {h : Hyper} {a : String} {v : Option Rat} : ∀ (l : List (String × Option Rat)) (d : Dict String (Option Rat)),
    (l.map Prod.fst).Nodup → (a, v) ∈ l → (written h l d).get? (label h a) = some v
  | [], d, _, hm => by cases hm
  | p :: l, d, hn, hm => by
    rw [List.map_cons, List.nodup_cons] at hn
    have e : written h (p :: l) d = written h l (Dict.set d (label h p.1) p.2) := rfl
    rw [e]
    rcases List.mem_cons.1 hm with rfl | hm
    · rw [written_other, Dict.get?_set_self]
      intro q hq he
      exact hn.1 (List.mem_map.2 ⟨q, hq, label_inj he⟩)
    · exact written_get l _ hn.2 hm

/-- the column with the throughput in absolute units -/
def realCol (axes : List String) (xs : List (Option Rat)) (init : Option Rat) : List (String × Option Rat) :=
  match (axes.zip xs).find? (fun p => p.1 == "normalized_regular_throughput") with
  | none => []
  | some p => [("real_regular_throughput", match p.2, init with
      | some n, some i => some (n * i)
      | _, _ => none)]

/-- what a successful call returns -/
theorem targets_ok {np : String → Bool} {h : Hyper} {df : List TRow} {out : Dict String (Option Rat)}
    (hr : thresholdTargets np h df = .ok out) :
    ∃ axs x0 x1 rest, collectAxes h.axes = .ok axs ∧
      crossings np h (filterKinks h.filterKinks df) axs = .ok (x0 :: x1 :: rest) ∧
      positive x0 = true ∧ positive x1 = true ∧
      out = written h (h.axes.zip (x0 :: x1 :: rest) ++
          realCol h.axes (x0 :: x1 :: rest) ((filterKinks h.filterKinks df).head?.map TRow.initial))
        [("initial_regular_throughput", (filterKinks h.filterKinks df).head?.map TRow.initial)] := by
  unfold thresholdTargets at hr
  simp only at hr
  split at hr
  · cases hr
  · rename_i axs haxs
    split at hr
    · cases hr
    · rename_i xs hxs
      split at hr
      · cases hr
      · rename_i x0 rest
        by_cases hp : positive x0 = true
        · simp only [hp, Bool.not_true, Bool.false_eq_true, if_false] at hr
          split at hr
          · cases hr
          · rename_i x1 rest'
            by_cases hp1 : positive x1 = true
            · simp only [hp1, Bool.not_true, Bool.false_eq_true, if_false] at hr
              exact ⟨axs, x0, x1, rest', haxs, hxs, hp, hp1, (Except.ok.inj hr).symm⟩
            · simp [hp1] at hr
        · simp [hp] at hr

theorem real_not_axis : axisOf "real_regular_throughput" = none := by decide +kernel

theorem nodup_cols {h : Hyper} {axs : List (String × (TRow → Rat))} {xs : List (Option Rat)} {init : Option Rat}
    (hax : collectAxes h.axes = .ok axs) (hnd : h.axes.Nodup) (hlen : xs.length = h.axes.length) :
    ((h.axes.zip xs ++ realCol h.axes xs init).map Prod.fst).Nodup := by
  rw [List.map_append, List.map_fst_zip (by omega)]
  unfold realCol
  split
  · simpa using hnd
  · rw [List.nodup_append]
    refine ⟨hnd, by simp, ?_⟩
    intro a ha b hb e
    simp only [List.map_cons, List.map_nil, List.mem_singleton] at hb
    subst hb
    subst e
    obtain ⟨h1, h2⟩ := collectAxes_ok _ _ hax
    rw [← h1, List.mem_map] at ha
    obtain ⟨p, hp, e⟩ := ha
    have := h2 p hp
    rw [e, real_not_axis] at this
    cases this

theorem crossings_length {np : String → Bool} {h : Hyper} {df : List TRow} {axs : List (String × (TRow → Rat))}
    {xs : List (Option Rat)} (hc : crossings np h df axs = .ok xs) : xs.length = axs.length := by
  unfold crossings at hc
  split at hc
  · split_ifs at hc
    · cases hc; simp
    · cases hc; simp
  · cases hc

/-- **C91**: for data of one cycle type and one metric that have crossed the threshold, without ties along
the axis, the column of an axis holds a place where the fraction comes closest to the threshold, the first two
are positive, and the throughput in absolute units is the normalized one times the unit.  Missing: data of
several types or metrics and ties (violated), data that have not crossed (violated). -/
theorem C91_closest_partial (np : String → Bool) (h : Hyper) (df : List TRow) (out : Dict String (Option Rat))
    (hr : thresholdTargets np h df = .ok out) (hk : h.filterKinks = none) (hnd : h.axes.Nodup)
    (honly : ∀ r ∈ df, r.cycleType = h.cycleType ∧ r.metric = h.metric)
    (hcross : ∃ r ∈ df, r.fraction ≤ h.threshold) :
    (∀ axis ∈ h.axes, ∀ f, Column axis f → (df.map f).Nodup →
      ∃ t, out.get? (targetName h axis) = some (some t) ∧ Closest ((chosen h df).map (fun r => (f r, r.fraction))) h.threshold t) ∧
    (∀ axis ∈ h.axes.take 2, ∃ t, out.get? (targetName h axis) = some (some t) ∧ 0 < t) ∧
    (∀ r rest, df = r :: rest → "normalized_regular_throughput" ∈ h.axes →
      ∃ n, out.get? (targetName h "normalized_regular_throughput") = some n ∧
        out.get? (targetName h "real_regular_throughput") = some (n.map (· * r.initial))) := by
  simp only [label_eq]
  obtain ⟨axs, x0, x1, rest, hax, hxs, hp0, hp1, rfl⟩ := targets_ok hr
  have hch : chosen h df = df := by
    unfold chosen
    rw [List.filter_eq_self]
    intro r hr
    simpa using honly r hr
  rw [hch]
  rw [hk] at hxs ⊢
  simp only [filterKinks] at hxs ⊢
  obtain ⟨hfst, haxis⟩ := collectAxes_ok _ _ hax
  have hlen := crossings_length hxs
  have hlen' : (x0 :: x1 :: rest).length = h.axes.length := by
    rw [hlen, ← hfst, List.length_map]
  have hnodup := nodup_cols (init := df.head?.map TRow.initial) hax hnd hlen'
  have hzip : ∀ (i : Nat) a v, h.axes[i]? = some a → (x0 :: x1 :: rest)[i]? = some v →
      (written h (h.axes.zip (x0 :: x1 :: rest) ++ realCol h.axes (x0 :: x1 :: rest) (df.head?.map TRow.initial))
        [("initial_regular_throughput", df.head?.map TRow.initial)]).get? (label h a) = some v := by
    intro i a v ha hv
    apply written_get _ _ hnodup
    refine List.mem_append_left _ (List.mem_of_getElem? (i := i) ?_)
    rw [List.getElem?_zip_eq_some]
    exact ⟨ha, hv⟩
  have hget : ∀ (i : Nat), i < h.axes.length → ∃ v, (x0 :: x1 :: rest)[i]? = some v := by
    intro i hi
    exact ⟨_, List.getElem?_eq_getElem (by omega)⟩
  refine ⟨?_, ?_, ?_⟩
  · intro axis ham f hf hties
    obtain ⟨i, hi⟩ := List.mem_iff_getElem?.1 ham
    have hilt : i < h.axes.length := (List.getElem?_eq_some_iff.1 hi).1
    obtain ⟨v, hv⟩ := hget i hilt
    rw [hzip i axis v hi hv]
    -- the value of the axis
    have hax' : axs[i]? = some (axis, f) := by
      have hi' : (axs.map Prod.fst)[i]? = some axis := by rw [hfst]; exact hi
      rw [List.getElem?_map, Option.map_eq_some_iff] at hi'
      obtain ⟨p, hp, e⟩ := hi'
      have := haxis p (List.mem_of_getElem? hp)
      rw [e, axis_of_column hf] at this
      rw [hp]
      congr 1
      exact Prod.ext e (Option.some.inj this).symm
    unfold crossings at hxs
    split at hxs
    · rename_i r2 r1 tl hrev
      have h2 : 2 ≤ df.length := by
        have := congrArg List.length hrev
        simp at this
        omega
      have hnot : ¬ minR (df.map TRow.fraction) > h.threshold := by
        obtain ⟨r, hr, hle⟩ := hcross
        have hne : df.map TRow.fraction ≠ [] := by
          intro e
          rw [List.map_eq_nil_iff] at e
          subst e
          cases hr
        have := (minR_spec hne).2 _ (List.mem_map.2 ⟨r, hr, rfl⟩)
        intro hgt
        linarith
      rw [if_neg hnot] at hxs
      have e := Except.ok.inj hxs
      rw [← e, List.getElem?_map, hax'] at hv
      simp only [Option.map_some, Option.some.injEq] at hv
      obtain ⟨t, ht, hcl⟩ := crossed_closest (np axis) h.threshold df f h2 hties
      rw [← hv]
      exact ⟨t, by rw [ht], hcl⟩
    · cases hxs
  · intro axis ham
    have hpos : ∀ v, positive v = true → ∃ t, v = some t ∧ 0 < t := by
      intro v hv
      cases v with
      | none => cases hv
      | some t => exact ⟨t, rfl, by simpa [positive] using hv⟩
    obtain ⟨i, hi⟩ := List.mem_iff_getElem?.1 ham
    have hi2 : i < 2 := by
      have := (List.getElem?_eq_some_iff.1 hi).1
      simp at this
      omega
    rw [List.getElem?_take, if_pos hi2] at hi
    have : i = 0 ∨ i = 1 := by omega
    rcases this with rfl | rfl
    · obtain ⟨t, ht, hpt⟩ := hpos _ hp0
      exact ⟨t, by rw [hzip 0 axis x0 hi rfl, ht], hpt⟩
    · obtain ⟨t, ht, hpt⟩ := hpos _ hp1
      exact ⟨t, by rw [hzip 1 axis x1 hi rfl, ht], hpt⟩
  · rintro r tl rfl ham
    obtain ⟨i, hi⟩ := List.mem_iff_getElem?.1 ham
    have hilt : i < h.axes.length := (List.getElem?_eq_some_iff.1 hi).1
    obtain ⟨v, hv⟩ := hget i hilt
    refine ⟨v, hzip i _ v hi hv, ?_⟩
    apply written_get _ _ hnodup
    apply List.mem_append_right
    have hfind : (h.axes.zip (x0 :: x1 :: rest)).find? (fun p => p.1 == "normalized_regular_throughput")
        = some ("normalized_regular_throughput", v) := by
      cases hfd : (h.axes.zip (x0 :: x1 :: rest)).find? (fun p => p.1 == "normalized_regular_throughput") with
      | none =>
        rw [List.find?_eq_none] at hfd
        have := hfd ("normalized_regular_throughput", v)
          (List.mem_of_getElem? (i := i) (List.getElem?_zip_eq_some.2 ⟨hi, hv⟩))
        simp at this
      | some p =>
        have hpm := List.mem_of_find?_eq_some hfd
        have hpe := List.find?_some hfd
        simp only [beq_iff_eq] at hpe
        obtain ⟨j, hj⟩ := List.mem_iff_getElem?.1 hpm
        rw [List.getElem?_zip_eq_some] at hj
        have hij : j = i := by
          rw [hpe, ← hi] at hj
          exact (List.getElem?_inj (List.getElem?_eq_some_iff.1 (hj.1.trans hi)).1 hnd).1 hj.1
        subst hij
        congr 1
        refine Prod.ext hpe ?_
        have := hj.2.symm.trans hv
        exact Option.some.inj this
    unfold realCol
    rw [hfind]
    simp only [List.head?_cons, Option.map_some, List.mem_singleton, Prod.mk.injEq, true_and]
    cases v <;> rfl

/-- **C91** fails: cycle type and metric only enter the names of the columns.  Whatever type and metric are
asked for, the values are the same. -/
theorem C91_ignored_violated (np : String → Bool) (h : Hyper) (df : List TRow) (out : Dict String (Option Rat))
    (hr : thresholdTargets np h df = .ok out) (hnd : h.axes.Nodup) (type metric : String) :
    ∃ out', thresholdTargets np { h with cycleType := type, metric := metric } df = .ok out' ∧
      ∀ axis ∈ h.axes, ∃ v, out.get? (targetName h axis) = some v ∧
        out'.get? (targetName { h with cycleType := type, metric := metric } axis) = some v := by
  simp only [label_eq]
  obtain ⟨axs, x0, x1, rest, hax, hxs, hp0, hp1, rfl⟩ := targets_ok hr
  have hlen' : (x0 :: x1 :: rest).length = h.axes.length := by
    rw [crossings_length hxs, ← (collectAxes_ok _ _ hax).1, List.length_map]
  have hc' : crossings np { h with cycleType := type, metric := metric } (filterKinks h.filterKinks df) axs
      = .ok (x0 :: x1 :: rest) := hxs
  refine ⟨written { h with cycleType := type, metric := metric } (h.axes.zip (x0 :: x1 :: rest) ++
      realCol h.axes (x0 :: x1 :: rest) ((filterKinks h.filterKinks df).head?.map TRow.initial))
      [("initial_regular_throughput", (filterKinks h.filterKinks df).head?.map TRow.initial)], ?_, ?_⟩
  · unfold thresholdTargets
    simp only [hax, hc', hp0, hp1, Bool.not_true, Bool.false_eq_true, if_false]
    rfl
  · intro axis ham
    obtain ⟨i, hi⟩ := List.mem_iff_getElem?.1 ham
    have hilt : i < h.axes.length := (List.getElem?_eq_some_iff.1 hi).1
    have hv : (x0 :: x1 :: rest)[i]? = some ((x0 :: x1 :: rest)[i]'(by omega)) := List.getElem?_eq_getElem _
    have hm := List.mem_append_left (realCol h.axes (x0 :: x1 :: rest) ((filterKinks h.filterKinks df).head?.map TRow.initial))
      (List.mem_of_getElem? (i := i) (List.getElem?_zip_eq_some (z := (axis, (x0 :: x1 :: rest)[i]'(by omega))).2 ⟨hi, hv⟩))
    have hn := nodup_cols (init := (filterKinks h.filterKinks df).head?.map TRow.initial) hax hnd hlen'
    exact ⟨_, written_get _ _ hn hm, written_get (h := { h with cycleType := type, metric := metric }) _ _ hn hm⟩

/-- **C91** fails: if two rows share the smallest place of the first axis and it is not positive, as two
diagnostics before the first regular cycle do, data that have not crossed the threshold are refused although
extrapolation is asked for -/
theorem C91_extrapolate_violated (np : String → Bool) (h : Hyper) (df : List TRow) (axis : String) (axes : List String)
    (f : TRow → Rat) (m : Rat) (hk : h.filterKinks = none) (he : h.extrapolate = true)
    (hnot : ∀ r ∈ df, h.threshold < r.fraction) (haxes : h.axes = axis :: axes) (hfc : Column axis f)
    (hvalid : ∀ a ∈ axes, ∃ g, Column a g)
    (hmin : ∀ r ∈ df, m ≤ f r) (htie : 2 ≤ (df.map f).count m) (hm : m ≤ 0) :
    thresholdTargets np h df = .error .beepError := by
  have hf := axis_of_column hfc
  have hcol : ∀ as : List String, (∀ a ∈ as, ∃ g, Column a g) → ∃ fs, collectAxes as = .ok fs := fun as h => columns_ok h
  obtain ⟨fs, hfs⟩ := hcol axes hvalid
  have hax : collectAxes h.axes = .ok ((axis, f) :: fs) := by
    rw [haxes]
    simp [collectAxes, hf, hfs]
  have hlen : 2 ≤ df.length := by
    have := List.count_le_length (a := m) (l := df.map f)
    rw [List.length_map] at this
    omega
  have hne : df.map TRow.fraction ≠ [] := by
    intro e
    rw [List.map_eq_nil_iff] at e
    subst e
    simp at hlen
  have hgt : minR (df.map TRow.fraction) > h.threshold := by
    obtain ⟨r, hr, e⟩ := List.mem_map.1 (minR_spec hne).1
    rw [← e]
    exact hnot r hr
  have hmem : ∃ r ∈ df, f r = m := by
    have : m ∈ df.map f := List.count_pos_iff.1 (by omega)
    obtain ⟨r, hr, e⟩ := List.mem_map.1 this
    exact ⟨r, hr, e⟩
  obtain ⟨r2, r1, tl, hrev⟩ : ∃ r2 r1 tl, df.reverse = r2 :: r1 :: tl := by
    match hd : df.reverse with
    | [] => rw [← List.length_reverse, hd] at hlen; simp at hlen
    | [_] => rw [← List.length_reverse, hd] at hlen; simp at hlen
    | r2 :: r1 :: tl => exact ⟨r2, r1, tl, rfl⟩
  have hpos : positive (extrapolated h.threshold df f r1 r2) = false := by
    rcases extrapolated_tie h.threshold df f r1 r2 m hmin hmem htie with e | e
    · rw [e]; rfl
    · rw [e]
      simp only [positive, decide_eq_false_iff_not, not_lt]
      exact hm
  unfold thresholdTargets
  simp only [hax, hk, filterKinks]
  unfold crossings
  rw [hrev]
  simp only [hgt, if_true, he, List.map_cons, hpos, Bool.not_false]

/-- **C91** fails: data that have not crossed the threshold, without extrapolation, end in an unbound local
variable instead of the featurization error -/
theorem C91_not_crossed_violated (np : String → Bool) (h : Hyper) (df : List TRow) (hk : h.filterKinks = none)
    (he : h.extrapolate = false) (hlen : 2 ≤ df.length) (hnot : ∀ r ∈ df, h.threshold < r.fraction)
    (hvalid : ∀ a ∈ h.axes, ∃ g, Column a g) : thresholdTargets np h df = .error .unboundLocal := by
  obtain ⟨fs, hfs⟩ := columns_ok hvalid
  have hne : df.map TRow.fraction ≠ [] := by
    intro e
    rw [List.map_eq_nil_iff] at e
    subst e
    simp at hlen
  have hgt : minR (df.map TRow.fraction) > h.threshold := by
    obtain ⟨r, hr, e⟩ := List.mem_map.1 (minR_spec hne).1
    rw [← e]
    exact hnot r hr
  obtain ⟨r2, r1, tl, hrev⟩ : ∃ r2 r1 tl, df.reverse = r2 :: r1 :: tl := by
    match hd : df.reverse with
    | [] => rw [← List.length_reverse, hd] at hlen; simp at hlen
    | [_] => rw [← List.length_reverse, hd] at hlen; simp at hlen
    | r2 :: r1 :: tl => exact ⟨r2, r1, tl, rfl⟩
  unfold thresholdTargets
  simp only [hfs, hk, filterKinks]
  unfold crossings
  rw [hrev]
  simp [hgt, he]

/-! ### C92 -/

/-- **C92**: with a cutoff, the rows used are those before the first cycle at which the rate of degradation
changes by less than the cutoff (a signed comparison).  Missing: cells without an abrupt change should not be
affected (violated for every positive cutoff). -/
theorem C92_cut_partial (k : Rat) (hk : k ≠ 0) (df : List TRow) :
    (filterKinks (some k) df).Sublist df ∧
    ∀ r ∈ df, r ∈ filterKinks (some k) df ↔ ∀ a b c, Triple df a b c → bend a b c < k → r.cycle < c.cycle := by
  unfold filterKinks
  simp only [hk, if_false]
  cases hm : minCycle (kinks k df) with
  | none =>
    rw [minCycle_none] at hm
    refine ⟨List.Sublist.refl _, fun r hr => ⟨fun _ a b c ht hb => ?_, fun _ => hr⟩⟩
    have : c.cycle ∈ kinks k df := mem_kinks.2 ⟨a, b, c, ht, hb, rfl⟩
    rw [hm] at this
    cases this
  | some m =>
    obtain ⟨h1, h2⟩ := minCycle_some _ _ hm
    refine ⟨List.filter_sublist, fun r hr => ?_⟩
    rw [List.mem_filter, decide_eq_true_eq]
    constructor
    · rintro ⟨-, hlt⟩ a b c ht hb
      have := h2 _ (mem_kinks.2 ⟨a, b, c, ht, hb, rfl⟩)
      omega
    · intro hall
      obtain ⟨a, b, c, ht, hb, rfl⟩ := mem_kinks.1 h1
      exact ⟨hr, hall a b c ht hb⟩

/-- **C92**: without a cutoff nothing is filtered -/
theorem C92_off (df : List TRow) : filterKinks none df = df := rfl

/-- **C92** fails: a cell whose rate of degradation never changes by as much as the cutoff is cut from its
third row on, whatever the positive cutoff -/
theorem C92_smooth_violated (k : Rat) (hk : 0 < k) (df : List TRow)
    (hsmooth : ∀ a b c, Triple df a b c → |bend a b c| < k) (a b c : TRow) (ht : Triple df a b c) :
    c ∉ filterKinks (some k) df ∧ ∀ r ∈ df, c.cycle ≤ r.cycle → r ∉ filterKinks (some k) df := by
  have hb : bend a b c < k := (abs_lt.1 (hsmooth a b c ht)).2
  have hcm : c ∈ df := by
    obtain ⟨pre, post, e⟩ := ht
    rw [e]
    simp
  have key : ∀ r ∈ df, c.cycle ≤ r.cycle → r ∉ filterKinks (some k) df := by
    intro r hr hle hmem
    have := ((C92_cut_partial k hk.ne' df).2 r hr).1 hmem a b c ht hb
    omega
  exact ⟨key c hcm le_rfl, key⟩

/-! ### examples -/

/-- one cycle type and metric: fractions 1, 0.9, 0.6 at cycles 1, 40, 140 -/
def sample : List TRow :=
  [⟨"rpt_1C", "discharge_energy", 1, 1, 9, 0, 0, 30, 100, 10⟩,
   ⟨"rpt_1C", "discharge_energy", 40, 9 / 10, 9, 1, 0, 30, 100, 20⟩,
   ⟨"rpt_1C", "discharge_energy", 140, 6 / 10, 9, 4, 0, 30, 100, 30⟩]

def hyper : Hyper :=
  { cycleType := "rpt_1C", metric := "discharge_energy", axes := ["normalized_regular_throughput", "cycle_index"],
    threshold := 8 / 10, thresholdText := "0.8", filterKinks := none, extrapolate := true }

def result (df : List TRow) (h : Hyper) (axis : String) : Option (Option Rat) :=
  match thresholdTargets (fun _ => true) h df with
  | .ok d => d.get? (label h axis)
  | .error _ => none

set_option maxRecDepth 100000 in
/-- the threshold is crossed at 2; on the grid the closest place is 4 · 500 / 999 or its neighbour -/
example : result sample hyper "normalized_regular_throughput" = some (some (4 * 499 / 999)) := by decide +kernel

example : (∀ r ∈ sample, r.cycleType = hyper.cycleType ∧ r.metric = hyper.metric) ∧
    (∃ r ∈ sample, r.fraction ≤ hyper.threshold) ∧ hyper.axes.Nodup ∧ (sample.map TRow.nRegular).Nodup := by
  decide +kernel

/-- two types at the same throughputs that have not crossed -/
def young : List TRow :=
  [⟨"rpt_1C", "discharge_energy", 2, 1, 9, 0, 0, 30, 100, 10⟩,
   ⟨"rpt_1C", "discharge_energy", 40, 95 / 100, 9, 1, 0, 30, 100, 20⟩,
   ⟨"rpt_2C", "discharge_energy", 3, 99 / 100, 9, 0, 0, 30, 100, 30⟩,
   ⟨"rpt_2C", "discharge_energy", 41, 94 / 100, 9, 1, 0, 30, 100, 30⟩]

example : (∀ r ∈ young, hyper.threshold < r.fraction) ∧ (∀ r ∈ young, 0 ≤ r.nRegular) ∧
    2 ≤ (young.map TRow.nRegular).count 0 ∧ hyper.extrapolate = true := by decide +kernel

example : thresholdTargets (fun _ => true) hyper young = .error .beepError ∧
    thresholdTargets (fun _ => true) { hyper with extrapolate := false } young = .error .unboundLocal := by
  decide +kernel

set_option maxRecDepth 100000 in
/-- one type alone is extrapolated -/
example : (thresholdTargets (fun _ => true) hyper (young.take 2)).toOption.isSome = true := by decide +kernel

/-- a cell that loses 5 % with every diagnostic, and the documented cutoff 0.04 -/
def steady : List TRow :=
  (List.range 5).map (fun i => ⟨"rpt_1C", "discharge_energy", 100 * i + 1, 1 - i / 20, 9, i, 0, 30, 100, 10⟩)

example : filterKinks (some (4 / 100)) steady = steady.take 2 := by decide +kernel

/-- **C91** the rows that the threshold is looked for in: those of every quantity asked for and every type of diagnostic
there is, each with its type and its quantity -/
theorem C91_frame (reg : List RegRow) (diag : List DiagRow) (quantities : List String) (start interval : Rat)
    (rows : List (String × String × NxRow)) (h : frame reg diag quantities start interval = .ok rows) (t q : String) (r : NxRow) :
    (t, q, r) ∈ rows ↔ q ∈ quantities ∧ (∃ d ∈ diag, d.type = t) ∧
      ∃ l, nx reg diag q t start interval = .ok l ∧ r ∈ l := by
  have all : ∀ a ∈ quantities.flatMap (fun q => (unique (diag.map DiagRow.type)).map (fun t => (q, t))),
      ∃ l, nx reg diag a.1 a.2 start interval = .ok l ∧ ∀ r ∈ l, (a.2, a.1, r) ∈ rows := by
    unfold frame at h
    generalize quantities.flatMap (fun q => (unique (diag.map DiagRow.type)).map (fun t => (q, t))) = as at h
    clear t q r
    induction as generalizing rows with
    | nil => intro a ha; cases ha
    | cons b as ih =>
      obtain ⟨l, hl, ls, hls, rfl⟩ := Beep.Interp.collect_cons h
      intro a ha
      rcases List.mem_cons.1 ha with rfl | ha
      · cases hn : nx reg diag a.1 a.2 start interval with
        | error e => rw [hn] at hl; cases hl
        | ok m =>
          rw [hn] at hl
          cases hl
          exact ⟨m, rfl, fun r hr => List.mem_append_left _ (List.mem_map.2 ⟨r, hr, rfl⟩)⟩
      · obtain ⟨m, hm, hmem⟩ := ih ls hls a ha
        exact ⟨m, hm, fun r hr => List.mem_append_right _ (hmem r hr)⟩
  have pairs : (q, t) ∈ quantities.flatMap (fun q => (unique (diag.map DiagRow.type)).map (fun t => (q, t))) ↔
      q ∈ quantities ∧ ∃ d ∈ diag, d.type = t := by
    simp only [List.mem_flatMap, List.mem_map, Prod.mk.injEq, mem_unique]
    constructor
    · rintro ⟨_, h1, _, ⟨d, hd, rfl⟩, rfl, rfl⟩; exact ⟨h1, d, hd, rfl⟩
    · rintro ⟨h1, d, hd, rfl⟩; exact ⟨q, h1, _, ⟨d, hd, rfl⟩, rfl, rfl⟩
  constructor
  · intro hr
    obtain ⟨⟨q', t'⟩, ha, b, hb, hrb⟩ := Beep.Interp.collect_mem h hr
    simp only at hb
    cases hn : nx reg diag q' t' start interval with
    | error e => rw [hn] at hb; cases hb
    | ok m =>
      rw [hn] at hb
      cases hb
      obtain ⟨r', hr', e⟩ := List.mem_map.1 hrb
      cases e
      obtain ⟨h1, h2⟩ := pairs.1 ha
      exact ⟨h1, h2, m, hn, hr'⟩
  · rintro ⟨h1, h2, l, hl, hr⟩
    obtain ⟨l', hl', hmem⟩ := all (q, t) (pairs.2 ⟨h1, h2⟩)
    simp only at hl' hmem
    rw [hl] at hl'
    cases hl'
    exact hmem r hr

example : ∃ rows, frame Beep.Props.Degradation.sampleReg Beep.Props.Degradation.sampleDiag ["discharge_energy"] 30 100 = .ok rows ∧
    rows.length = 4 := by
  have hc : (match frame Beep.Props.Degradation.sampleReg Beep.Props.Degradation.sampleDiag ["discharge_energy"] 30 100 with
    | .ok rows => rows.length | .error _ => 0) = 4 := by decide +kernel
  cases h : frame Beep.Props.Degradation.sampleReg Beep.Props.Degradation.sampleDiag ["discharge_energy"] 30 100 with
  | error e => rw [h] at hc; cases hc
  | ok rows => rw [h] at hc; exact ⟨rows, rfl, hc⟩

end Beep.Props.Threshold
