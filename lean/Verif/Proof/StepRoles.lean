import Verif.Proof.Rounding
import Verif.Proof.Base
import Verif.Proof.Py
import Verif.Proof.Pandas
import Verif.Proof.Stats
import Verif.Spec.StepRoles
/-
Lemmas about the roles of steps.
-/
namespace Beep.Proof.StepRoles
open Beep Pandas Table StepRoles Spec.StepRoles Spec.Stats Proof.Stats

theorem countN_zero (vs : List (Option Rat)) (h : countN vs = 0) : vs.filterMap id = [] := by
  induction vs with
  | nil => rfl
  | cons v vs ih =>
    cases v with
    | none => simpa [countN] using ih (by simpa [countN] using h)
    | some v => simp [countN] at h

theorem mean_of_median (vs : List (Option Rat)) (m : Rat) (h : medianN vs = some m) :
    ∃ x, meanN vs = some x := by
  unfold meanN
  by_cases hc : countN vs = 0
  · exfalso
    unfold medianN at h
    rw [countN_zero vs hc] at h
    simp [sortBy] at h
  · exact ⟨_, if_neg hc⟩

theorem rates (cap : Rat) (rows : List Row) (m : Rat) (h : medianRate cap rows = some m) :
    ∃ x, meanRate cap rows = some x := by
  unfold medianRate at h
  cases hm : medianN (rows.map Row.current) with
  | none => rw [hm] at h; cases h
  | some y =>
    obtain ⟨x, hx⟩ := mean_of_median _ _ hm
    exact ⟨_, by unfold meanRate; rw [hx]; rfl⟩

theorem repeats_iff (rows : List Row) :
    (unique (rows.map Row.counter)).length > 1 ↔ ∃ r ∈ rows, ∃ q ∈ rows, r.counter ≠ q.counter := by
  constructor
  · intro h
    have hn := nodup_unique (rows.map Row.counter)
    match hu : unique (rows.map Row.counter) with
    | [] => rw [hu] at h; simp at h
    | [_] => rw [hu] at h; simp at h
    | a :: b :: l =>
      rw [hu] at hn
      have ha : a ∈ rows.map Row.counter := by rw [← mem_unique, hu]; simp
      have hb : b ∈ rows.map Row.counter := by rw [← mem_unique, hu]; simp
      obtain ⟨r, hr, rfl⟩ := List.mem_map.mp ha
      obtain ⟨q, hq, rfl⟩ := List.mem_map.mp hb
      refine ⟨r, hr, q, hq, ?_⟩
      simp only [List.nodup_cons, List.mem_cons, not_or] at hn
      exact hn.1.1
  · rintro ⟨r, hr, q, hq, hne⟩
    have ha : r.counter ∈ unique (rows.map Row.counter) := mem_unique.mpr (List.mem_map.mpr ⟨r, hr, rfl⟩)
    have hb : q.counter ∈ unique (rows.map Row.counter) := mem_unique.mpr (List.mem_map.mpr ⟨q, hq, rfl⟩)
    match hu : unique (rows.map Row.counter) with
    | [] => rw [hu] at ha; simp at ha
    | [x] =>
      rw [hu] at ha hb
      simp only [List.mem_singleton] at ha hb
      exact absurd (ha.trans hb.symm) hne
    | a :: b :: l => simp

/-- the facts of a step, in the terms of the code -/
def CodeFacts (cap : Rat) (cycle : List Row) (s : Int) (f : Facts) : Prop :=
  medianRate cap (ofStep cycle s) = some f.median ∧ meanRate cap (ofStep cycle s) = some f.mean ∧
  f.duration = medianDuration (ofStep cycle s) ∧
  (f.last ↔ lastTime (ofStep cycle s) = lastTime cycle) ∧
  (f.repeats ↔ ∃ r ∈ ofStep cycle s, ∃ q ∈ ofStep cycle s, r.counter ≠ q.counter)

theorem lastTime_iff {rows : List Row} (hne : rows ≠ []) (t : Rat) :
    lastTime rows = t ↔ (∃ r ∈ rows, r.time = t) ∧ ∀ r ∈ rows, r.time ≤ t := by
  unfold lastTime
  cases h : maxN (rows.map (fun r => some r.time)) with
  | none =>
    obtain ⟨r, hr⟩ := List.exists_mem_of_ne_nil _ hne
    exact absurd ⟨r.time, List.mem_map.mpr ⟨r, hr, rfl⟩⟩ ((maxN_none _).mp h)
  | some m =>
    obtain ⟨h1, h2⟩ := maxN_some _ _ h
    obtain ⟨q, hq, hqm⟩ := List.mem_map.mp h1
    injection hqm with hqm
    have h3 : ∀ r ∈ rows, r.time ≤ m := fun r hr => h2 _ (List.mem_map.mpr ⟨r, hr, rfl⟩)
    show m = t ↔ _
    constructor
    · rintro rfl; exact ⟨⟨q, hq, hqm⟩, h3⟩
    · rintro ⟨⟨r, hr, rfl⟩, h4⟩
      exact le_antisymm (hqm ▸ h4 q hq) (h3 r hr)

theorem firstTime_iff {rows : List Row} (hne : rows ≠ []) (t : Rat) :
    firstTime rows = t ↔ (∃ r ∈ rows, r.time = t) ∧ ∀ r ∈ rows, t ≤ r.time := by
  unfold firstTime
  cases h : minN (rows.map (fun r => some r.time)) with
  | none =>
    obtain ⟨r, hr⟩ := List.exists_mem_of_ne_nil _ hne
    exact absurd ⟨r.time, List.mem_map.mpr ⟨r, hr, rfl⟩⟩ ((minN_none _).mp h)
  | some m =>
    obtain ⟨h1, h2⟩ := minN_some _ _ h
    obtain ⟨q, hq, hqm⟩ := List.mem_map.mp h1
    injection hqm with hqm
    have h3 : ∀ r ∈ rows, m ≤ r.time := fun r hr => h2 _ (List.mem_map.mpr ⟨r, hr, rfl⟩)
    show m = t ↔ _
    constructor
    · rintro rfl; exact ⟨⟨q, hq, hqm⟩, h3⟩
    · rintro ⟨⟨r, hr, rfl⟩, h4⟩
      exact le_antisymm (h3 r hr) (hqm ▸ h4 q hq)

/-- the duration of an occurrence as computed -/
def spanOf (rows : List Row) (k : Int) : Rat :=
  lastTime (rows.filter (fun r => r.counter = k)) - firstTime (rows.filter (fun r => r.counter = k))

theorem span_iff {rows : List Row} {k : Int} (hk : ∃ r ∈ rows, r.counter = k) (d : Rat) :
    IsSpan rows k d ↔ d = spanOf rows k := by
  have hne : rows.filter (fun r => r.counter = k) ≠ [] := by
    obtain ⟨r, hr, hrk⟩ := hk
    exact List.ne_nil_of_mem (List.mem_filter.mpr ⟨hr, by simpa using hrk⟩)
  obtain ⟨⟨b, hb, hb1⟩, hb2⟩ := (lastTime_iff hne _).mp rfl
  obtain ⟨⟨a, ha, ha1⟩, ha2⟩ := (firstTime_iff hne _).mp rfl
  rw [List.mem_filter] at ha hb
  have fin : ∀ r ∈ rows, r.counter = k → r ∈ rows.filter (fun r => r.counter = k) :=
    fun r hr hrk => List.mem_filter.mpr ⟨hr, by simpa using hrk⟩
  unfold spanOf
  constructor
  · rintro ⟨a', ha', b', hb', ka, kb, hall, rfl⟩
    have e1 : lastTime (rows.filter (fun r => r.counter = k)) = b'.time :=
      (lastTime_iff hne _).mpr ⟨⟨b', fin b' hb' kb, rfl⟩, fun r hr =>
        (hall r (List.mem_filter.mp hr).1 (by simpa using (List.mem_filter.mp hr).2)).2⟩
    have e2 : firstTime (rows.filter (fun r => r.counter = k)) = a'.time :=
      (firstTime_iff hne _).mpr ⟨⟨a', fin a' ha' ka, rfl⟩, fun r hr =>
        (hall r (List.mem_filter.mp hr).1 (by simpa using (List.mem_filter.mp hr).2)).1⟩
    rw [e1, e2]
  · rintro rfl
    exact ⟨a, ha.1, b, hb.1, by simpa using ha.2, by simpa using hb.2,
      fun r hr hrk => ⟨ha1 ▸ ha2 r (fin r hr hrk), hb1 ▸ hb2 r (fin r hr hrk)⟩, by rw [hb1, ha1]⟩

theorem present_some (l : List Rat) : present (l.map some) = l := by
  unfold present
  rw [List.filterMap_map]
  show l.filterMap (fun x => some x) = l
  simp

theorem duration_iff {rows : List Row} (hne : rows ≠ []) (t : Rat) :
    IsDuration rows t ↔ t = medianDuration rows := by
  have hmd : medianDuration rows =
      roundEven ((medianN (((unique (rows.map Row.counter)).map (spanOf rows)).map some)).getD 0) := by
    unfold medianDuration
    rw [List.map_map]
    rfl
  have hmem : ∀ k, k ∈ unique (rows.map Row.counter) ↔ ∃ r ∈ rows, r.counter = k := by
    intro k; rw [mem_unique, List.mem_map]
  have hune : (unique (rows.map Row.counter)).map (spanOf rows) ≠ [] := by
    obtain ⟨r, hr⟩ := List.exists_mem_of_ne_nil _ hne
    exact List.ne_nil_of_mem (List.mem_map.mpr ⟨_, (hmem _).mpr ⟨r, hr, rfl⟩, rfl⟩)
  have hmed : ∀ d, IsMedian ((unique (rows.map Row.counter)).map (spanOf rows)) d →
      medianDuration rows = roundEven d := by
    intro d hd
    rw [hmd, (medianN_iff _ d).mpr (by rw [present_some]; exact hd)]
    rfl
  constructor
  · rintro ⟨ks, ds, d, hn, hks, hds, hd, n, hr, rfl⟩
    rw [(Proof.rounds_iff _ _).mp hr, hmed d]
    have hp : ks.Perm (unique (rows.map Row.counter)) :=
      (List.perm_ext_iff_of_nodup hn (nodup_unique _)).mpr (fun k => by rw [hks, hmem])
    have he : ds = ks.map (spanOf rows) := by
      have hks' : ∀ k ∈ ks, ∃ r ∈ rows, r.counter = k := fun k hk => (hks k).mp hk
      clear hks hn hd hp
      induction hds with
      | nil => rfl
      | cons h _ ih =>
        rw [List.map_cons, ← ih (fun k hk => hks' k (List.mem_cons_of_mem _ hk)),
          (span_iff (hks' _ List.mem_cons_self) _).mp h]
    rw [he] at hd
    exact (isMedian_perm (hp.map _) d).mp hd
  · rintro rfl
    obtain ⟨d, hd⟩ := isMedian_exists hune
    refine ⟨unique (rows.map Row.counter), _, d, nodup_unique _, hmem, ?_, hd, roundEven d, Proof.roundEven_rounds d, hmed d hd⟩
    rw [List.forall₂_map_right_iff, List.forall₂_same]
    intro k hk
    exact (span_iff ((hmem k).mp hk) _).mpr rfl

theorem median_rate_iff (cap : Rat) (rows : List Row) (m : Rat) :
    medianRate cap rows = some m ↔ ∃ x, IsMedian (currents rows) x ∧ Spec.TwoDecimals (x / cap) m := by
  unfold medianRate
  simp only [Proof.twoDecimals_iff]
  rw [Option.map_eq_some_iff]
  constructor
  · rintro ⟨x, h1, h2⟩; exact ⟨x, (medianN_iff ..).mp h1, h2.symm⟩
  · rintro ⟨x, h1, h2⟩; exact ⟨x, (medianN_iff ..).mpr h1, h2.symm⟩

theorem mean_rate_iff (cap : Rat) (rows : List Row) (m : Rat) :
    meanRate cap rows = some m ↔ ∃ x, IsMean (currents rows) x ∧ Spec.TwoDecimals (x / cap) m := by
  unfold meanRate
  simp only [Proof.twoDecimals_iff]
  rw [Option.map_eq_some_iff]
  constructor
  · rintro ⟨x, h1, h2⟩; exact ⟨x, (meanN_iff ..).mp h1, h2.symm⟩
  · rintro ⟨x, h1, h2⟩; exact ⟨x, (meanN_iff ..).mpr h1, h2.symm⟩

theorem last_iff (cycle : List Row) (s : Int) (hne : ofStep cycle s ≠ []) :
    (∀ r ∈ cycle, ∃ q ∈ stepRows cycle s, r.time ≤ q.time) ↔ lastTime (ofStep cycle s) = lastTime cycle := by
  have hcne : cycle ≠ [] := by
    intro e; rw [e] at hne; exact hne rfl
  obtain ⟨⟨b, hb, hb1⟩, hb2⟩ := (lastTime_iff hne _).mp rfl
  obtain ⟨⟨c, hc, hc1⟩, hc2⟩ := (lastTime_iff hcne _).mp rfl
  constructor
  · intro h
    obtain ⟨q, hq, hle⟩ := h c hc
    exact le_antisymm (hb1 ▸ hc2 b (List.mem_filter.mp hb).1) (by rw [← hc1]; exact le_trans hle (hb2 q hq))
  · intro h r hr
    exact ⟨b, hb, by rw [hb1, h]; exact hc2 r hr⟩

/-- what the code computes are the facts -/
theorem facts_iff (cap : Rat) (cycle : List Row) (s : Int) (f : Facts) :
    IsFacts cap cycle s f ↔ CodeFacts cap cycle s f := by
  unfold IsFacts CodeFacts
  change (∃ x, IsMedian (currents (ofStep cycle s)) x ∧ Spec.TwoDecimals (x / cap) f.median) ∧
    (∃ x, IsMean (currents (ofStep cycle s)) x ∧ Spec.TwoDecimals (x / cap) f.mean) ∧ IsDuration (ofStep cycle s) f.duration ∧
    _ ∧ (f.repeats ↔ ∃ r ∈ ofStep cycle s, ∃ q ∈ ofStep cycle s, r.counter ≠ q.counter) ↔ _
  rw [← median_rate_iff, ← mean_rate_iff]
  by_cases hne : ofStep cycle s = []
  · have : medianRate cap (ofStep cycle s) = none := by rw [hne]; rfl
    rw [this]
    simp
  · rw [duration_iff hne, last_iff cycle s hne]

/-- the facts of a step with a median current -/
def factsOf (cap : Rat) (cycle : List Row) (s : Int) (m mu : Rat) : Facts where
  median := m
  mean := mu
  duration := medianDuration (ofStep cycle s)
  last := lastTime (ofStep cycle s) = lastTime cycle
  repeats := ∃ r ∈ ofStep cycle s, ∃ q ∈ ofStep cycle s, r.counter ≠ q.counter

theorem facts_eq (cap : Rat) (cycle : List Row) (s : Int) (m mu : Rat) (f : Facts)
    (hm : medianRate cap (ofStep cycle s) = some m) (hmu : meanRate cap (ofStep cycle s) = some mu)
    (h : IsFacts cap cycle s f) : f = factsOf cap cycle s m mu := by
  obtain ⟨h1, h2, h3, h4, h5⟩ := (facts_iff ..).mp h
  rw [hm] at h1; rw [hmu] at h2
  cases f
  simp only [Option.some.injEq] at h1 h2
  simp only at h3 h4 h5
  subst h1 h2 h3
  unfold factsOf
  congr 1
  · exact propext h4
  · exact propext h5

theorem absR_of_neg {x : Rat} (h : x < 0) : absR x = -x := by unfold absR; rw [if_pos h]
theorem absR_of_pos {x : Rat} (h : 0 < x) : absR x = x := by
  unfold absR; rw [if_neg (by linarith)]

theorem fits_unique (f : Facts) (r r' : Role) (h : f.Fits r) (h' : f.Fits r') : r = r' := by
  cases r <;> cases r' <;> first
    | rfl
    | exact (h : False).elim
    | exact (h' : False).elim
    | (exfalso; linarith [h.1, h'.1])
    | (exfalso; linarith [h.2, h'.2.2])
    | (exfalso; linarith [h.2.2, h'.2])
    | exact absurd h.2 h'.2.1
    | exact absurd h'.2 h.2.1
    | exact absurd h.2.2 h'.2.2.1
    | exact absurd h'.2.2 h.2.2.1
    | (exfalso; linarith [h.2.2, h'.2])
    | (exfalso; linarith [h.2, h'.2.2])

/-- the chain of tests for given measurements -/
def chain (m mu t : Rat) (L R : Bool) : Except Err (Option Role) :=
  if eqN (some m) (some 0) then
    if t > 600 then .ok (some .longRest)
    else if 600 ≥ t ∧ t > 0 then .ok (some .shortRest)
    else .error .valueError
  else if leN (some m) (-(1 / 2)) && decide (t < 120) then .ok (some .dischargePulse)
  else if geN (some m) (1 / 2) && decide (t < 120) then .ok (some .chargePulse)
  else if (!eqN (some mu) (some m) && ltN (some m) 0) && L && !R then .ok (some .finalDischarge)
  else if (eqN (some mu) (some m) && ltN (some m) 0) && L && !R then .ok (some .finalDischarge)
  else if (eqN (some mu) (some m) && ltN (some m) 0) &&
      gtN ((some mu).map (fun x => absR (x * t / 3600))) (5 / 100) then .ok (some .dischargeToNextSoc)
  else if gtN (some m) 0 && decide (t > 120) then .ok (some .chargeToSoc)
  else .ok none

theorem chain_iff (f : Facts) (L R : Bool) (hL : L = true ↔ f.last) (hR : R = true ↔ f.repeats) (r : Role) :
    chain f.median f.mean f.duration L R = .ok (some r) ↔ f.Fits r := by
  have good : ∀ X, chain f.median f.mean f.duration L R = .ok (some X) → f.Fits X →
      (chain f.median f.mean f.duration L R = .ok (some r) ↔ f.Fits r) := by
    intro X h1 h2
    rw [h1]
    constructor
    · intro h; injection h with h; injection h with h; rw [← h]; exact h2
    · intro h; rw [fits_unique f X r h2 h]
  have bad : (∀ X, chain f.median f.mean f.duration L R ≠ .ok (some X)) → (∀ X, ¬ f.Fits X) →
      (chain f.median f.mean f.duration L R = .ok (some r) ↔ f.Fits r) := by
    intro h1 h2; exact iff_of_false (h1 r) (h2 r)
  have hp : f.median < 0 → (f.Pulse ↔ f.median ≤ -(1 / 2) ∧ f.duration < 120) := by
    intro h; unfold Facts.Pulse; rw [absR_of_neg h]
    constructor
    · rintro ⟨a, b⟩; exact ⟨by linarith, b⟩
    · rintro ⟨a, b⟩; exact ⟨by linarith, b⟩
  have hq : 0 < f.median → (f.Pulse ↔ 1 / 2 ≤ f.median ∧ f.duration < 120) := by
    intro h; unfold Facts.Pulse; rw [absR_of_pos h]
  unfold chain at *
  simp only [eqN, leN, geN, ltN, gtN, Option.map_some, Bool.and_eq_true, decide_eq_true_eq,
    Bool.not_eq_true', decide_eq_false_iff_not] at *
  rcases lt_trichotomy f.median 0 with h | h | h
  · have h0 : ¬ f.median = 0 := ne_of_lt h
    have h1 : ¬ (1 / 2 ≤ f.median ∧ f.duration < 120) := fun hc => by linarith [hc.1]
    have h2 : ¬ (0 < f.median ∧ f.duration > 120) := fun hc => by linarith [hc.1]
    rw [if_neg h0, if_neg h1, if_neg h2] at *
    by_cases c1 : f.median ≤ -(1 / 2) ∧ f.duration < 120
    · rw [if_pos c1] at *
      exact good .dischargePulse rfl ⟨h, (hp h).mpr c1⟩
    · rw [if_neg c1] at *
      have hnp : ¬ f.Pulse := fun hc => c1 ((hp h).mp hc)
      by_cases c2 : L = true ∧ R = false
      · have c2' : f.last ∧ ¬ f.repeats := ⟨hL.mp c2.1, fun hc => by rw [hR.mpr hc] at c2; cases c2.2⟩
        by_cases c3 : f.mean = f.median
        · have d1 : ¬ (((¬ f.mean = f.median ∧ f.median < 0) ∧ L = true) ∧ R = false) :=
            fun hc => hc.1.1.1 c3
          have d2 : ((f.mean = f.median ∧ f.median < 0) ∧ L = true) ∧ R = false := ⟨⟨⟨c3, h⟩, c2.1⟩, c2.2⟩
          rw [if_neg d1, if_pos d2] at *
          exact good .finalDischarge rfl ⟨h, hnp, c2'.1, c2'.2⟩
        · have d1 : ((¬ f.mean = f.median ∧ f.median < 0) ∧ L = true) ∧ R = false := ⟨⟨⟨c3, h⟩, c2.1⟩, c2.2⟩
          rw [if_pos d1] at *
          exact good .finalDischarge rfl ⟨h, hnp, c2'.1, c2'.2⟩
      · have c2' : ¬ (f.last ∧ ¬ f.repeats) := by
          rintro ⟨a, b⟩
          exact c2 ⟨hL.mpr a, by cases R with
            | false => rfl
            | true => exact absurd (hR.mp rfl) b⟩
        have d1 : ¬ (((¬ f.mean = f.median ∧ f.median < 0) ∧ L = true) ∧ R = false) :=
          fun hc => c2 ⟨hc.1.2, hc.2⟩
        have d2 : ¬ (((f.mean = f.median ∧ f.median < 0) ∧ L = true) ∧ R = false) :=
          fun hc => c2 ⟨hc.1.2, hc.2⟩
        rw [if_neg d1, if_neg d2] at *
        by_cases c3 : (f.mean = f.median ∧ f.median < 0) ∧ 5 / 100 < absR (f.mean * f.duration / 3600)
        · rw [if_pos c3] at *
          exact good .dischargeToNextSoc rfl ⟨h, hnp, c2', c3.1.1, c3.2⟩
        · rw [if_neg c3] at *
          refine bad (by intro X hX; cases hX) ?_
          intro X hX
          cases X with
          | longRest => exact h0 hX.1
          | shortRest => exact h0 hX.1
          | dischargePulse => exact hnp hX.2
          | chargePulse => linarith [hX.1]
          | finalDischarge => exact c2' hX.2.2
          | dischargeToNextSoc => exact c3 ⟨⟨hX.2.2.2.1, h⟩, hX.2.2.2.2⟩
          | chargeToSoc => linarith [hX.1]
          | charge => exact hX
          | discharge => exact hX
  · rw [if_pos h] at *
    by_cases c1 : f.duration > 600
    · rw [if_pos c1] at *
      exact good .longRest rfl ⟨h, c1⟩
    · rw [if_neg c1] at *
      by_cases c2 : 600 ≥ f.duration ∧ f.duration > 0
      · rw [if_pos c2] at *
        exact good .shortRest rfl ⟨h, c2.2, c2.1⟩
      · rw [if_neg c2] at *
        refine bad (by intro X hX; cases hX) ?_
        intro X hX
        cases X with
        | longRest => exact c1 hX.2
        | shortRest => exact c2 ⟨hX.2.2, hX.2.1⟩
        | dischargePulse => linarith [hX.1]
        | chargePulse => linarith [hX.1]
        | finalDischarge => linarith [hX.1]
        | dischargeToNextSoc => linarith [hX.1]
        | chargeToSoc => linarith [hX.1]
        | charge => exact hX
        | discharge => exact hX
  · have h0 : ¬ f.median = 0 := fun hc => by linarith
    have h1 : ¬ (f.median ≤ -(1 / 2) ∧ f.duration < 120) := fun hc => by linarith [hc.1]
    have d1 : ¬ (((¬ f.mean = f.median ∧ f.median < 0) ∧ L = true) ∧ R = false) :=
      fun hc => by linarith [hc.1.1.2]
    have d2 : ¬ (((f.mean = f.median ∧ f.median < 0) ∧ L = true) ∧ R = false) :=
      fun hc => by linarith [hc.1.1.2]
    have d3 : ¬ ((f.mean = f.median ∧ f.median < 0) ∧ 5 / 100 < absR (f.mean * f.duration / 3600)) :=
      fun hc => by linarith [hc.1.2]
    rw [if_neg h0, if_neg h1, if_neg d1, if_neg d2, if_neg d3] at *
    by_cases c1 : 1 / 2 ≤ f.median ∧ f.duration < 120
    · rw [if_pos c1] at *
      exact good .chargePulse rfl ⟨h, (hq h).mpr c1⟩
    · rw [if_neg c1] at *
      have hnp : ¬ f.Pulse := fun hc => c1 ((hq h).mp hc)
      by_cases c2 : 0 < f.median ∧ f.duration > 120
      · rw [if_pos c2] at *
        exact good .chargeToSoc rfl ⟨h, c2.2⟩
      · rw [if_neg c2] at *
        refine bad (by intro X hX; cases hX) ?_
        intro X hX
        cases X with
        | longRest => exact h0 hX.1
        | shortRest => exact h0 hX.1
        | dischargePulse => linarith [hX.1]
        | chargePulse => exact hnp hX.2
        | finalDischarge => linarith [hX.1]
        | dischargeToNextSoc => linarith [hX.1]
        | chargeToSoc => exact c2 ⟨hX.1, hX.2⟩
        | charge => exact hX
        | discharge => exact hX

/-- the role of a step of an hppc cycle, in the terms of the code and in those of the specification -/
theorem hppcRole_iff (cap : Rat) (cycle : List Row) (s : Int) (r : Role) :
    hppcRole cap cycle s = .ok (some r) ↔ ∃ f, IsFacts cap cycle s f ∧ f.Fits r := by
  cases hm : medianRate cap (ofStep cycle s) with
  | none =>
    constructor
    · intro h
      exfalso
      simp only [hppcRole, hm, eqN, leN, geN, ltN, gtN, Bool.false_and, Bool.and_false, Bool.false_eq_true,
        if_false] at h
      cases h
    · rintro ⟨f, hf, _⟩; have h1 := ((facts_iff ..).mp hf).1; rw [hm] at h1; cases h1
  | some m =>
    obtain ⟨mu, hmu⟩ := rates cap _ m hm
    have hf : (∃ f, IsFacts cap cycle s f ∧ f.Fits r) ↔ (factsOf cap cycle s m mu).Fits r := by
      constructor
      · rintro ⟨f, h1, h2⟩; rw [facts_eq cap cycle s m mu f hm hmu h1] at h2; exact h2
      · intro h; exact ⟨_, (facts_iff ..).mpr ⟨hm, hmu, rfl, Iff.rfl, Iff.rfl⟩, h⟩
    rw [hf]
    have hL : decide (lastTime cycle - lastTime (ofStep cycle s) = 0) = true ↔
        (factsOf cap cycle s m mu).last := by
      unfold factsOf
      simp only [decide_eq_true_eq]
      constructor
      · intro h; linarith
      · intro h; linarith
    have hR : decide ((unique ((ofStep cycle s).map Row.counter)).length > 1) = true ↔
        (factsOf cap cycle s m mu).repeats := by
      rw [decide_eq_true_eq]; exact repeats_iff _
    have hchain : hppcRole cap cycle s = chain m mu (medianDuration (ofStep cycle s))
        (decide (lastTime cycle - lastTime (ofStep cycle s) = 0))
        (decide ((unique ((ofStep cycle s).map Row.counter)).length > 1)) := by
      simp only [hppcRole, chain, hm, hmu]
    rw [hchain]
    exact chain_iff (factsOf cap cycle s m mu) _ _ hL hR r

theorem plainRole_iff (cap : Rat) (cycle : List Row) (s : Int) (r : Role) :
    plainRole cap cycle s = .ok (some r) ↔ ∃ m, medianRate cap (ofStep cycle s) = some m ∧
      match r with
      | .charge => 0 < m
      | .discharge => m < 0
      | _ => False := by
  unfold plainRole
  cases hm : medianRate cap (ofStep cycle s) with
  | none => simp [gtN, ltN]
  | some m =>
    simp only [gtN, ltN, Option.some.injEq, exists_eq_left', decide_eq_true_eq]
    rcases lt_trichotomy m 0 with h | h | h
    · rw [if_neg (by linarith), if_pos h]
      constructor
      · intro e; injection e with e; injection e with e; subst e; exact h
      · intro e
        cases r <;> simp at e ⊢
        linarith
    · subst h
      simp
      cases r <;> simp
    · rw [if_pos h]
      constructor
      · intro e; injection e with e; injection e with e; subst e; exact h
      · intro e
        cases r <;> simp at e ⊢
        linarith

theorem plainRole_spec (cap : Rat) (cycle : List Row) (s : Int) (r : Role) :
    plainRole cap cycle s = .ok (some r) ↔ ∃ x m, IsMedian (currents (stepRows cycle s)) x ∧ Spec.TwoDecimals (x / cap) m ∧
      match r with
      | .charge => 0 < m
      | .discharge => m < 0
      | _ => False := by
  rw [plainRole_iff]
  constructor
  · rintro ⟨m, h1, h2⟩
    obtain ⟨x, h3, h4⟩ := (median_rate_iff ..).mp h1
    exact ⟨x, m, h3, h4, h2⟩
  · rintro ⟨x, m, h1, h3, h2⟩
    exact ⟨m, (median_rate_iff ..).mpr ⟨x, h1, h3⟩, h2⟩

theorem at?_iff (xs : List Int) (i : Int) :
    at? xs i = if 0 ≤ i then xs[i.toNat]? else xs.reverse[(-i - 1).toNat]? := by
  unfold at?
  split
  · rfl
  · rename_i hneg
    by_cases h : (xs.length : Int) + i < 0
    · rw [if_pos h, List.getElem?_eq_none (by rw [List.length_reverse]; omega)]
    · rw [if_neg h, List.getElem?_reverse (by omega)]
      congr 1
      omega

theorem chosen_iff (data : List Row) (ty : Str) (pos : Int) (cycle : List Row) :
    chosen data ty pos = some cycle ↔ IsChosen data ty pos cycle := by
  unfold chosen IsChosen
  dsimp only
  rw [Option.map_eq_some_iff, at?_iff]
  constructor
  · rintro ⟨k, h1, rfl⟩
    refine ⟨k, h1, ?_⟩
    rw [List.filter_filter]
    apply List.filter_congr
    intro r _
    simp [Bool.and_comm]
  · rintro ⟨k, h1, rfl⟩
    refine ⟨k, h1, ?_⟩
    rw [List.filter_filter]
    apply List.filter_congr
    intro r _
    simp [Bool.and_comm]

/-! ### the loop -/

theorem length_set {κ ν : Type} [DecidableEq κ] (d : Dict κ ν) (k : κ) (v : ν) :
    (Dict.set d k v).length = if k ∈ d.keys then d.length else d.length + 1 := by
  induction d with
  | nil => simp [Dict.set, Dict.keys]
  | cons p d ih =>
    obtain ⟨k', v'⟩ := p
    simp only [Dict.set]
    have hk : Dict.keys ((k', v') :: d) = k' :: Dict.keys d := rfl
    rw [hk]
    split
    · rename_i h; simp [h]
    · rename_i h
      simp only [List.length_cons, ih, List.mem_cons, Ne.symm h, false_or]
      split <;> rfl

theorem annotate_ok (role : Int → Except Err (Option Role)) (ss : List Int) (d d' : Dict Role Int)
    (h : annotate role ss d = .ok d') :
    d'.length ≤ d.length + ss.length ∧
    (∀ r s, Dict.get? d' r = some s → Dict.get? d r = some s ∨ (s ∈ ss ∧ role s = .ok (some r))) ∧
    (d'.length = d.length + ss.length →
      (∀ s ∈ ss, ∃ r, role s = .ok (some r) ∧ Dict.get? d' r = some s) ∧
      (∀ r ∈ d.keys, Dict.get? d' r = Dict.get? d r)) := by
  induction ss generalizing d with
  | nil =>
    simp only [annotate] at h
    injection h with h; subst h
    exact ⟨by simp, fun r s h => Or.inl h, fun _ => ⟨by simp, fun _ _ => rfl⟩⟩
  | cons s ss ih =>
    simp only [annotate] at h
    split at h
    · cases h
    · obtain ⟨h1, h2, _⟩ := ih d h
      refine ⟨by simp only [List.length_cons]; omega, ?_, ?_⟩
      · intro r x hx
        rcases h2 r x hx with h | ⟨h, h'⟩
        · exact Or.inl h
        · exact Or.inr ⟨by simp [h], h'⟩
      · intro he; simp only [List.length_cons] at he; omega
    · rename_i r hr
      obtain ⟨h1, h2, h3⟩ := ih _ h
      have hl := length_set d r s
      refine ⟨?_, ?_, ?_⟩
      · simp only [List.length_cons]
        split at hl <;> omega
      · intro r' x hx
        rcases h2 r' x hx with h | ⟨h, h'⟩
        · by_cases he : r' = r
          · subst he
            rw [Dict.get?_set_self] at h
            injection h with h; subst h
            exact Or.inr ⟨by simp, hr⟩
          · rw [Dict.get?_set_ne _ _ he] at h; exact Or.inl h
        · exact Or.inr ⟨by simp [h], h'⟩
      · intro he
        simp only [List.length_cons] at he
        split at hl
        · omega
        · rename_i hnk
          obtain ⟨h4, h5⟩ := h3 (by omega)
          refine ⟨?_, ?_⟩
          · intro x hx
            rcases List.mem_cons.mp hx with rfl | hx
            · refine ⟨r, hr, ?_⟩
              rw [h5 r (Dict.mem_keys_set.mpr (Or.inl rfl)), Dict.get?_set_self]
            · exact h4 x hx
          · intro r' hr'
            rw [h5 r' (Dict.mem_keys_set.mpr (Or.inr hr'))]
            exact Dict.get?_set_ne _ _ (fun e => hnk (e ▸ hr'))

theorem annotate_all (role : Int → Except Err (Option Role)) (ss : List Int) (d : Dict Role Int)
    (hn : ss.Nodup) (hr : ∀ s ∈ ss, ∃ r, role s = .ok (some r) ∧ r ∉ d.keys ∧
      ∀ s' ∈ ss, s' ≠ s → role s' ≠ .ok (some r)) :
    ∃ d', annotate role ss d = .ok d' ∧ d'.length = d.length + ss.length := by
  induction ss generalizing d with
  | nil => exact ⟨d, rfl, by simp⟩
  | cons s ss ih =>
    obtain ⟨r, h1, h2, h3⟩ := hr s (by simp)
    have hn' := List.nodup_cons.mp hn
    obtain ⟨d', h4, h5⟩ := ih (Dict.set d r s) hn'.2 (by
      intro x hx
      obtain ⟨q, hq1, hq2, hq3⟩ := hr x (by simp [hx])
      refine ⟨q, hq1, ?_, fun y hy => hq3 y (by simp [hy])⟩
      intro hk
      rcases Dict.mem_keys_set.mp hk with rfl | hk
      · exact hq3 s (by simp) (fun e => hn'.1 (e ▸ hx)) h1
      · exact hq2 hk)
    refine ⟨d', by simp only [annotate, h1, h4], ?_⟩
    rw [h5, length_set, if_neg h2]
    simp only [List.length_cons]; omega

end Beep.Proof.StepRoles
