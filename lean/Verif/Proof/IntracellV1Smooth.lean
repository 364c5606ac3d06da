import Verif.Model.IntracellV1Smooth
import Verif.Spec.IntracellV1Smooth
import Verif.Props.IntracellV1Error
import Verif.Props.IntracellV1Slopes
/-
Helper lemmas for Props/IntracellV1Smooth.
-/
namespace Beep.Props.IntracellV1
open Beep Pandas Beep.Intracell Beep.IntracellFit Beep.IntracellV1 Beep.Spec.Intracell
open Beep.Props.Intracell Beep.Props.IntracellFit Beep.Spec.IntracellSlopes Beep.Props.IntracellSlopes
open Beep.Spec.IntracellV1Smooth
open Beep.Interp (linspace length_linspace getElem?_linspace)

/-- the state of the smoothing after the values up to index `i` -/
def stateBy (a : Rat) (g : List (Option Rat)) (i : Nat) : Option (Rat × Rat) := (g.take (i + 1)).foldl (ewmStepBy a) none

theorem ewmByFrom_get (a : Rat) (g : List (Option Rat)) : ∀ (s : Option (Rat × Rat)) (i : Nat), i < g.length →
    (ewmByFrom a s g)[i]? = some (((g.take (i + 1)).foldl (ewmStepBy a) s).map Prod.fst) := by
  induction g with
  | nil => intro s i hi; simp at hi
  | cons v vs ih =>
    intro s i hi
    cases i with
    | zero => rfl
    | succ i =>
      show (((ewmStepBy a s v).map Prod.fst) :: ewmByFrom a (ewmStepBy a s v) vs)[i + 1]? = _
      rw [List.getElem?_cons_succ, ih _ i (by simp only [List.length_cons] at hi; omega)]
      rfl

theorem ewmBy_length (a : Rat) (g : List (Option Rat)) : ∀ s, (ewmByFrom a s g).length = g.length := by
  induction g with
  | nil => intro s; rfl
  | cons v vs ih => intro s; simp only [ewmByFrom, List.length_cons, ih]

theorem stateBy_succ (a : Rat) (g : List (Option Rat)) (i : Nat) (v : Option Rat) (h : g[i + 1]? = some v) :
    stateBy a g (i + 1) = ewmStepBy a (stateBy a g i) v := by
  unfold stateBy
  rw [List.take_add_one (i := i + 1), h]
  simp only [Option.toList_some, List.foldl_append, List.foldl_cons, List.foldl_nil]

theorem stateBy_zero (a : Rat) (g : List (Option Rat)) (v : Option Rat) (h : g[0]? = some v) :
    stateBy a g 0 = ewmStepBy a none v := by
  cases g with
  | nil => cases h
  | cons b as =>
    simp only [List.getElem?_cons_zero, Option.some.injEq] at h
    subst h
    rfl

theorem weighed_zero (a : Rat) (f : Nat → Rat) : weighed a f 0 = f 0 := by
  unfold weighed
  simp [List.range_succ]

theorem weighed_succ (a : Rat) (f : Nat → Rat) (i : Nat) : weighed a f (i + 1) = weighed a f i * (1 - a) + f (i + 1) := by
  unfold weighed
  rw [List.range_succ (n := i + 1), List.map_append, List.sum_append]
  have aux : ∀ l : List Nat, (∀ j ∈ l, j ≤ i) → (l.map (fun j => f j * (1 - a) ^ (i + 1 - j))).sum =
      (l.map (fun j => f j * (1 - a) ^ (i - j))).sum * (1 - a) := by
    intro l
    induction l with
    | nil => intro _; simp
    | cons b l ih =>
      intro hl
      have hb : i + 1 - b = (i - b) + 1 := by have := hl b (by simp); omega
      simp only [List.map_cons, List.sum_cons]
      rw [ih (fun j hj => hl j (List.mem_cons_of_mem _ hj)), hb, pow_succ]
      ring
  rw [aux _ (fun j hj => by have := List.mem_range.1 hj; omega)]
  simp

/-- what the state of the smoothing holds -/
theorem stateBy_inv {a : Rat} (ha : Weight a) (g : List (Option Rat)) : ∀ i, i < g.length →
    (stateBy a g i = none ∧ (∀ j, j ≤ i → g[j]? = some none) ∧ weighed a (indicator g) i = 0 ∧ weighed a (valueOr0 g) i = 0) ∨
    ∃ m w k v, stateBy a g i = some (m, w) ∧ 0 ≤ w ∧ w = weighed a (indicator g) i ∧ m * w = weighed a (valueOr0 g) i ∧
      k ≤ i ∧ g[k]? = some (some v) ∧ (∀ j, k < j → j ≤ i → g[j]? = some none) ∧ 0 < weighed a (indicator g) k ∧
      m * weighed a (indicator g) k = weighed a (valueOr0 g) k := by
  have h1a : 0 ≤ 1 - a := by linarith [ha.2]
  intro i
  induction i with
  | zero =>
    intro hi
    obtain ⟨v, hv⟩ : ∃ v, g[0]? = some v := ⟨_, List.getElem?_eq_getElem hi⟩
    rw [stateBy_zero a g v hv, weighed_zero, weighed_zero]
    rw [indicator_of hv, value_of hv]
    cases v with
    | none =>
      left
      refine ⟨rfl, ?_, rfl, rfl⟩
      intro j hj
      have : j = 0 := by omega
      rw [this]; exact hv
    | some x =>
      right
      refine ⟨x, 1, 0, x, rfl, by norm_num, rfl, by simp, le_refl _, hv, fun j h1 h2 => by omega, ?_, ?_⟩
      · rw [weighed_zero, indicator_of hv]; simp
      · rw [weighed_zero, weighed_zero, indicator_of hv, value_of hv]; simp
  | succ i ih =>
    intro hi
    obtain ⟨v, hv⟩ : ∃ v, g[i + 1]? = some v := ⟨_, List.getElem?_eq_getElem hi⟩
    have w1 := weighed_succ a (indicator g) i
    have w2 := weighed_succ a (valueOr0 g) i
    rw [indicator_of hv] at w1
    rw [value_of hv] at w2
    rw [stateBy_succ a g i v hv]
    rcases ih (by omega) with ⟨h1, h2, h3, h4⟩ | ⟨m, w, k, u, h1, h2, h3, h4, h5, h6, h7, h8, h9⟩
    · rw [h1]
      rw [h3] at w1
      rw [h4] at w2
      cases v with
      | none =>
        left
        refine ⟨rfl, ?_, by rw [w1]; simp, by rw [w2]; simp⟩
        intro j hj
        rcases Nat.lt_or_ge j (i + 1) with h | h
        · exact h2 j (by omega)
        · have : j = i + 1 := by omega
          rw [this]; exact hv
      | some x =>
        right
        refine ⟨x, 1, i + 1, x, rfl, by norm_num, by rw [w1]; simp, by rw [w2]; simp, le_refl _, hv, fun j h1 h2 => by omega, ?_, ?_⟩
        · rw [w1]; simp
        · rw [w1, w2]; simp
    · rw [h1]
      rw [← h3] at w1
      rw [← h4] at w2
      right
      cases v with
      | none =>
        refine ⟨m, w * (1 - a), k, u, rfl, mul_nonneg h2 h1a, by rw [w1]; simp, by rw [w2]; simp only [Option.elim_none]; ring,
          by omega, h6, ?_, h8, h9⟩
        intro j hj1 hj2
        rcases Nat.lt_or_ge j (i + 1) with h | h
        · exact h7 j hj1 (by omega)
        · have : j = i + 1 := by omega
          rw [this]; exact hv
      | some x =>
        have hp : 0 < w * (1 - a) + 1 := by have := mul_nonneg h2 h1a; linarith
        have hmean : (w * (1 - a) * m + x) / (w * (1 - a) + 1) * (w * (1 - a) + 1) = m * w * (1 - a) + x := by
          rw [div_mul_cancel₀ _ hp.ne']; ring
        simp only [Option.elim_some, id] at w1 w2
        refine ⟨(w * (1 - a) * m + x) / (w * (1 - a) + 1), w * (1 - a) + 1, i + 1, x, rfl, hp.le, w1.symm, ?_, le_refl _, hv,
          fun j h1 h2 => by omega, by rw [w1]; exact hp, ?_⟩
        · rw [w2]; exact hmean
        · rw [w1, w2]; exact hmean

theorem ewmBy_smoothed {a : Rat} (ha : Weight a) (g : List (Option Rat)) (i : Nat) (hi : i < g.length) :
    ∃ m, (ewmByFrom a none g)[i]? = some m ∧ SmoothedBy a g i m := by
  refine ⟨_, ewmByFrom_get a g none i hi, ?_⟩
  rcases stateBy_inv ha g i hi with ⟨h1, h2, _, _⟩ | ⟨m, w, k, v, h1, _, _, _, h5, h6, h7, h8, h9⟩
  · left
    unfold stateBy at h1
    rw [h1]; exact ⟨rfl, h2⟩
  · right
    unfold stateBy at h1
    exact ⟨k, v, m, h5, h6, h7, by rw [h1]; rfl, h8, h9⟩

theorem slopesBy_spec {a : Rat} (ha : Weight a) {rows : List (Option Rat × Option Rat)} (h2 : 2 ≤ rows.length)
    (hr : Rising rows) : ∃ d, slopesBy a rows = .ok d ∧ SmoothedSlopesBy a rows d := by
  obtain ⟨g, hg⟩ := gradient_ok h2
  obtain ⟨hl, hs⟩ := gradient_spec hg hr
  refine ⟨ewmByFrom a none g, ?_, g, hl, by rw [ewmBy_length, hl], ?_⟩
  · unfold slopesBy
    rw [hg]
    exact if_pos ha
  · intro i hi
    obtain ⟨s, h1, h2⟩ := hs i hi
    obtain ⟨m, h3, h4⟩ := ewmBy_smoothed ha g i (by omega)
    exact ⟨s, m, h1, h3, h2, h4⟩

/-- the slopes are there whatever the rows, exactly for a usable weight -/
theorem slopesBy_ok (a : Rat) {rows : List (Option Rat × Option Rat)} (h2 : 2 ≤ rows.length) :
    (Weight a ∧ ∃ d, slopesBy a rows = .ok d ∧ d.length = rows.length) ∨ (¬ Weight a ∧ slopesBy a rows = .error .valueError) := by
  obtain ⟨g, hg⟩ := gradient_ok h2
  unfold slopesBy
  rw [hg]
  simp only
  by_cases ha : Weight a
  · left
    refine ⟨ha, _, if_pos ha, by rw [ewmBy_length, gradient_length hg]⟩
  · right
    exact ⟨ha, if_neg ha⟩

theorem dvdqBy_spec {a : Rat} (ha : Weight a) {c : Curve} (hl : 2 ≤ c.length) (hr : Rising (c.map (fun p => (some p.1, p.2)))) :
    ∃ d, dvdqBy a c = .ok d ∧ VoltageSlopesBy a c d := by
  obtain ⟨d, hd, hs⟩ := slopesBy_spec ha (rows := c.map (fun p => (some p.1, p.2))) (by rw [List.length_map]; exact hl) hr
  have hdl : d.length = c.length := by
    obtain ⟨_, _, h, _⟩ := hs
    rw [h, List.length_map]
  refine ⟨(c.map Prod.fst).zip d, by unfold dvdqBy; rw [hd], List.map_fst_zip (by rw [List.length_map]; omega), ?_⟩
  rw [List.map_snd_zip (by rw [List.length_map]; omega)]
  exact hs

/-- a row as a tuple -/
def tuple (r : OverV) : Rat × Rat × Option Rat := (r.volt, r.dqdv, r.q)

theorem dqdvBy_spec {a : Rat} (ha : Weight a) {c : Curve} (hl : 2 ≤ c.length) (hv : ∃ p ∈ c, p.2 ≠ none)
    (hrise : Rising (c.map (fun p => (p.2, some p.1)))) (hdist : Distinct (capacityByVoltage c)) :
    ∃ rows, dqdvBy a c = .ok rows ∧ ByVoltage a c (rows.map tuple) := by
  obtain ⟨d, hd, hs⟩ := slopesBy_spec ha (rows := c.map (fun p => (p.2, some p.1))) (by rw [List.length_map]; exact hl) hrise
  have hgl : d.length = c.length := by
    obtain ⟨_, _, h, _⟩ := hs
    rw [h, List.length_map]
  have hq : qPoints (d.zip c) = capacityByVoltage c := filterMap_zip_q d c hgl
  have hp : dqdvPoints (d.zip c) = columnByVoltage c d := filterMap_zip_swap d c
  have hne : capacityByVoltage c ≠ [] := by
    obtain ⟨p, hp, hpv⟩ := hv
    obtain ⟨q, v⟩ := p
    cases v with
    | none => exact absurd rfl hpv
    | some v => exact List.ne_nil_of_mem (List.mem_filterMap.2 ⟨_, hp, rfl⟩)
  have hfst := column_fst d c hgl
  have hdist' : Distinct (columnByVoltage c d) := by unfold Distinct; rw [hfst]; exact hdist
  refine ⟨(linspace lowerV upperV 1001).map (fun v =>
      ⟨v, (interpFill 0 0 (columnByVoltage c d) v).getD 0, interpFill 0 100 (capacityByVoltage c) v⟩), ?_, ?_, d, hs, ?_⟩
  · unfold dqdvBy
    rw [hd]
    simp only
    rw [hq, hp, if_neg (by rw [List.isEmpty_iff]; exact hne)]
  · rw [List.map_map, List.map_map]
    have : ∀ (f : Rat → Rat) (g : Rat → Option Rat),
        (Prod.fst ∘ tuple) ∘ (fun v => (⟨v, f v, g v⟩ : OverV)) = (id : Rat → Rat) := fun _ _ => rfl
    rw [this, List.map_id]
    exact even_linspace _ _
  · intro v s q hr
    rw [List.map_map] at hr
    obtain ⟨v', _, e⟩ := List.mem_map.1 hr
    have e' : (v', (interpFill 0 0 (columnByVoltage c d) v').getD 0, interpFill 0 100 (capacityByVoltage c) v') = (v, s, q) := e
    obtain ⟨rfl, e2⟩ := Prod.mk.inj e'
    obtain ⟨rfl, rfl⟩ := Prod.mk.inj e2
    cases hrg : range (capacityByVoltage c) with
    | none => exact absurd ((range_none _).1 hrg) hne
    | some ab =>
      obtain ⟨lo, hi⟩ := ab
      have hrg' : range (columnByVoltage c d) = some (lo, hi) := by rw [range_fst hfst]; exact hrg
      obtain ⟨⟨pl, hpl, el⟩, ⟨ph, hph, eh⟩, hall⟩ := (range_iff ..).1 hrg
      obtain ⟨⟨pl', hpl', el'⟩, _, hall'⟩ := (range_iff ..).1 hrg'
      refine ⟨?_, ?_, ?_⟩
      · intro h
        have hx : v' < lo := by rw [← el]; exact h pl hpl
        have hlh : lo ≤ hi := by rw [← el]; exact (hall pl hpl).2
        rw [(Beep.Props.IntracellFeatures.fill_ok hdist hrg (by linarith)).1 h,
          (Beep.Props.IntracellFeatures.fill_ok hdist' hrg' (by linarith)).1 (fun p hp => lt_of_lt_of_le hx (hall' p hp).1)]
        exact ⟨rfl, rfl⟩
      · intro h
        have hx : hi < v' := by rw [← eh]; exact h ph hph
        rw [fill_above hrg hx, fill_above hrg' hx]
        exact ⟨rfl, rfl⟩
      · rintro ⟨p, hp, h1⟩ ⟨p', hp', h2⟩
        have hx : v' ≤ hi := le_trans h2 (hall p' hp').2
        have hx' : lo ≤ v' := le_trans (hall p hp).1 h1
        refine ⟨(Beep.Props.IntracellFeatures.fill_ok hdist hrg hx).2 ⟨p, hp, h1⟩, interpFill 0 0 (columnByVoltage c d) v',
          (Beep.Props.IntracellFeatures.fill_ok hdist' hrg' hx).2 ⟨pl', hpl', by rw [el']; exact hx'⟩, ?_⟩
        cases interpFill 0 0 (columnByVoltage c d) v' with
        | none => exact Or.inr ⟨rfl, rfl⟩
        | some t => exact Or.inl rfl

/-- `dVdQ` is refused exactly for an unusable weight -/
theorem dvdqBy_total (a : Rat) {c : Curve} (hl : 2 ≤ c.length) :
    (Weight a ∧ ∃ d, dvdqBy a c = .ok d) ∨ (¬ Weight a ∧ dvdqBy a c = .error .valueError) := by
  rcases slopesBy_ok a (rows := c.map (fun p => (some p.1, p.2))) (by rw [List.length_map]; exact hl) with ⟨h, d, h1, _⟩ | ⟨h, h1⟩
  · left; exact ⟨h, by unfold dvdqBy; rw [h1]; exact ⟨_, rfl⟩⟩
  · right; exact ⟨h, by unfold dvdqBy; rw [h1]⟩

/-- `dQdV` is refused exactly for an unusable weight or a profile without a voltage -/
theorem dqdvBy_total (a : Rat) {c : Curve} (hl : 2 ≤ c.length) :
    ((Weight a ∧ ∃ p ∈ c, p.2 ≠ none) ∧ ∃ d, dqdvBy a c = .ok d) ∨
    (¬ (Weight a ∧ ∃ p ∈ c, p.2 ≠ none) ∧ dqdvBy a c = .error .valueError) := by
  rcases slopesBy_ok a (rows := c.map (fun p => (p.2, some p.1))) (by rw [List.length_map]; exact hl) with ⟨h, d, h1, h2⟩ | ⟨h, h1⟩
  · rw [List.length_map] at h2
    have hq : qPoints (d.zip c) = capacityByVoltage c := filterMap_zip_q d c h2
    by_cases hv : ∃ p ∈ c, p.2 ≠ none
    · left
      refine ⟨⟨h, hv⟩, ?_⟩
      obtain ⟨⟨q, v⟩, hp, hpv⟩ := hv
      cases v with
      | none => exact absurd rfl hpv
      | some v =>
        have : capacityByVoltage c ≠ [] := List.ne_nil_of_mem (List.mem_filterMap.2 ⟨_, hp, rfl⟩)
        unfold dqdvBy
        rw [h1]
        simp only
        rw [hq, if_neg (by rw [List.isEmpty_iff]; exact this)]
        exact ⟨_, rfl⟩
    · right
      refine ⟨fun h => hv h.2, ?_⟩
      have : capacityByVoltage c = [] := by
        unfold capacityByVoltage
        rw [List.filterMap_eq_nil_iff]
        intro p hp
        cases hpv : p.2 with
        | none => rfl
        | some v => exact absurd ⟨p, hp, by rw [hpv]; simp⟩ hv
      unfold dqdvBy
      rw [h1]
      simp only
      rw [hq, if_pos (by rw [this]; rfl)]
  · right; exact ⟨fun h' => h h'.1, by unfold dqdvBy; rw [h1]⟩

/-- the grid of a match -/
theorem matchV3_grid {pe ne1 pos neg real : Curve} {lli lamPe lamNe x2 : Rat} {m : Matched} (hreal : Distinct real)
    (hw : ∃ p ∈ real, ∃ q ∈ real, p.2 ≠ none ∧ q.2 ≠ none ∧ p.1 ≠ q.1)
    (h : matchV3 pe ne1 pos neg lli lamPe lamNe x2 real = .ok m) :
    ∃ a b, a < b ∧ m.real.map Prod.fst = linspace a b 1001 ∧ m.emulated.map Prod.fst = linspace a b 1001 ∧
      (∃ p ∈ m.real, p.2 ≠ none) ∧ m.real.length = 1001 ∧ m.emulated.length = 1001 := by
  obtain ⟨hres, em, a', b', hr', hem⟩ := matchV3_real h
  obtain ⟨lo, hi, hb⟩ := bounded real
  obtain ⟨a, b, hab, hr, hr2, _, _, hgrid, _⟩ := resampled_fixed hreal hres (resampled_wide hres hw) hb
  rw [hr] at hr'
  obtain ⟨rfl, rfl⟩ := Prod.mk.inj (Option.some.inj hr')
  obtain ⟨_, hall, _, l1, l2⟩ := matchV3_rows hreal hw h
  refine ⟨a, b, hab, by rw [hgrid, map_fst_grid], by rw [hem, map_fst_grid], ?_, l1, l2⟩
  have hne : m.real ≠ [] := by intro h; rw [h] at l1; cases l1
  obtain ⟨p, hp⟩ := List.exists_mem_of_ne_nil _ hne
  exact ⟨p, hp, hall p hp⟩

end Beep.Props.IntracellV1
