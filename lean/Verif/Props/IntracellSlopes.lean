import Verif.Props.IntracellFit
import Verif.Spec.IntracellSlopes
/-
C135, C136: the derivatives that the intracell analysis compares.
-/
namespace Beep.Props.IntracellSlopes
open Beep Pandas Beep.Intracell Beep.IntracellFit Beep.Spec.Intracell Beep.Spec.IntracellFit Beep.Spec.IntracellSlopes
open Beep.Props.Intracell Beep.Props.IntracellFit
open Beep.Interp (linspace length_linspace getElem?_linspace)

/-! ### slopes -/

theorem slope_missing {p q : Option Rat × Option Rat} (h : Missing p ∨ Missing q) : slope p q = none := by
  obtain ⟨a, b⟩ := p
  obtain ⟨c, d⟩ := q
  unfold Missing at h
  simp only at h
  unfold slope divN
  rcases h with (h | h) | (h | h) <;> subst h
  · cases subN d b <;> cases c <;> rfl
  · cases d <;> rfl
  · cases subN d b <;> rfl
  · cases b <;> rfl

theorem slope_some (x0 y0 x1 y1 : Rat) (h : x0 ≠ x1) :
    slope (some x0, some y0) (some x1, some y1) = some ((y1 - y0) / (x1 - x0)) := by
  have : x1 - x0 ≠ 0 := fun e => h (by linarith)
  show (if x1 - x0 = 0 then none else some ((y1 - y0) / (x1 - x0))) = _
  rw [if_neg this]

theorem full_or_missing (p : Option Rat × Option Rat) : Missing p ∨ ∃ x y, p = (some x, some y) := by
  obtain ⟨a, b⟩ := p
  cases a with
  | none => left; left; rfl
  | some a => cases b with
    | none => left; right; rfl
    | some b => right; exact ⟨a, b, rfl⟩

theorem lineSlope_ok {p q : Option Rat × Option Rat}
    (h : ∀ x0 y0 x1 y1, p = (some x0, y0) → q = (some x1, y1) → x0 < x1) : LineSlope p q (slope p q) := by
  rcases full_or_missing p with hp | ⟨x0, y0, rfl⟩
  · left; exact ⟨slope_missing (Or.inl hp), Or.inl hp⟩
  · rcases full_or_missing q with hq | ⟨x1, y1, rfl⟩
    · left; exact ⟨slope_missing (Or.inr hq), Or.inr hq⟩
    · right
      have hlt := h x0 (some y0) x1 (some y1) rfl rfl
      refine ⟨x0, y0, x1, y1, _, rfl, rfl, slope_some x0 y0 x1 y1 hlt.ne, ?_⟩
      have : x1 - x0 ≠ 0 := by intro e; linarith
      field_simp

theorem middle_some (x0 y0 x1 y1 x2 y2 : Rat) (h : x0 < x1) (h' : x1 < x2) :
    middle (some x0, some y0) (some x1, some y1) (some x2, some y2) =
      some (((x2 - x1) * ((y1 - y0) / (x1 - x0)) + (x1 - x0) * ((y2 - y1) / (x2 - x1))) / (x1 - x0 + (x2 - x1))) := by
  unfold middle
  rw [slope_some _ _ _ _ h.ne, slope_some _ _ _ _ h'.ne]
  show (if x1 - x0 + (x2 - x1) = 0 then none else some _) = _
  rw [if_neg (by intro e; linarith)]

theorem middle_missing {p q r : Option Rat × Option Rat} (h : Missing p ∨ Missing q ∨ Missing r) : middle p q r = none := by
  unfold middle
  rcases h with h | h | h
  · rw [slope_missing (Or.inl h)]
  · rw [slope_missing (Or.inr h)]
  · cases slope p q with
    | none => rfl
    | some s => rw [slope_missing (Or.inr h)]

theorem parabola_ok {p q r : Option Rat × Option Rat}
    (h : ∀ x0 y0 x1 y1, p = (some x0, y0) → q = (some x1, y1) → x0 < x1)
    (h' : ∀ x0 y0 x1 y1, q = (some x0, y0) → r = (some x1, y1) → x0 < x1) : ParabolaSlope p q r (middle p q r) := by
  rcases full_or_missing p with hp | ⟨x0, y0, rfl⟩
  · left; exact ⟨middle_missing (Or.inl hp), Or.inl hp⟩
  · rcases full_or_missing q with hq | ⟨x1, y1, rfl⟩
    · left; exact ⟨middle_missing (Or.inr (Or.inl hq)), Or.inr (Or.inl hq)⟩
    · rcases full_or_missing r with hr | ⟨x2, y2, rfl⟩
      · left; exact ⟨middle_missing (Or.inr (Or.inr hr)), Or.inr (Or.inr hr)⟩
      · right
        have h1 := h x0 (some y0) x1 (some y1) rfl rfl
        have h2 := h' x1 (some y1) x2 (some y2) rfl rfl
        have d1 : x1 - x0 ≠ 0 := by intro e; linarith
        have d2 : x2 - x1 ≠ 0 := by intro e; linarith
        have d3 : x1 - x0 + (x2 - x1) ≠ 0 := by intro e; linarith
        have d4 : x2 - x0 ≠ 0 := by intro e; linarith
        generalize hs : (y1 - y0) / (x1 - x0) = s at *
        generalize ht : (y2 - y1) / (x2 - x1) = t at *
        have e1 : y1 - y0 = s * (x1 - x0) := by rw [← hs]; field_simp
        have e2 : y2 - y1 = t * (x2 - x1) := by rw [← ht]; field_simp
        -- divided differences: a = (t - s) / (x2 - x0), b = s - a (x0 + x1), c = y0 - a x0² - b x0
        refine ⟨x0, y0, x1, y1, x2, y2, (t - s) / (x2 - x0), s - (t - s) / (x2 - x0) * (x0 + x1),
          y0 - (t - s) / (x2 - x0) * x0 * x0 - (s - (t - s) / (x2 - x0) * (x0 + x1)) * x0, rfl, rfl, rfl, ?_, ?_, ?_, ?_⟩
        · ring
        · have : y1 = y0 + s * (x1 - x0) := by linarith
          rw [this]; ring
        · have : y2 = y0 + s * (x1 - x0) + t * (x2 - x1) := by linarith
          have ea : (t - s) / (x2 - x0) * (x2 - x0) = t - s := by field_simp
          rw [this]
          generalize (t - s) / (x2 - x0) = a at *
          have et : t = s + a * (x2 - x0) := by linarith
          rw [et]; ring
        · rw [middle_some x0 y0 x1 y1 x2 y2 h1 h2, hs, ht]
          congr 1
          have ea : (t - s) / (x2 - x0) * (x2 - x0) = t - s := by field_simp
          generalize (t - s) / (x2 - x0) = a at *
          have et : t = s + a * (x2 - x0) := by linarith
          rw [et, div_eq_iff d3]; ring

theorem slopes_length (rest : List (Option Rat × Option Rat)) : ∀ p q, (slopes p q rest).length = rest.length + 1 := by
  induction rest with
  | nil => intro p q; rfl
  | cons r rest ih => intro p q; simp only [slopes, List.length_cons, ih]

/-- the slope of a later row -/
theorem slopes_get (rest : List (Option Rat × Option Rat)) : ∀ (p q : Option Rat × Option Rat) (i : Nat), i < rest.length + 1 →
    ∃ u v, (p :: q :: rest)[i]? = some u ∧ (p :: q :: rest)[i + 1]? = some v ∧
      ((i + 2 = (p :: q :: rest).length ∧ (slopes p q rest)[i]? = some (slope u v)) ∨
       ∃ w, (p :: q :: rest)[i + 2]? = some w ∧ (slopes p q rest)[i]? = some (middle u v w)) := by
  induction rest with
  | nil =>
    intro p q i hi
    have : i = 0 := by simp only [List.length_nil] at hi; omega
    subst this
    exact ⟨p, q, rfl, rfl, Or.inl ⟨rfl, rfl⟩⟩
  | cons r rest ih =>
    intro p q i hi
    cases i with
    | zero => exact ⟨p, q, rfl, rfl, Or.inr ⟨r, rfl, rfl⟩⟩
    | succ i =>
      obtain ⟨u, v, h1, h2, h3⟩ := ih q r i (by simp only [List.length_cons] at hi; omega)
      refine ⟨u, v, by simpa using h1, by simpa using h2, ?_⟩
      rcases h3 with ⟨h3, h4⟩ | ⟨w, h3, h4⟩
      · left
        refine ⟨by simp only [List.length_cons] at h3 ⊢; omega, ?_⟩
        show (middle p q r :: slopes q r rest)[i + 1]? = _
        rw [List.getElem?_cons_succ]; exact h4
      · right
        refine ⟨w, by simpa using h3, ?_⟩
        show (middle p q r :: slopes q r rest)[i + 1]? = _
        rw [List.getElem?_cons_succ]; exact h4

theorem gradient_length {rows : List (Option Rat × Option Rat)} {g : List (Option Rat)} (h : gradient rows = .ok g) :
    g.length = rows.length := by
  match rows, h with
  | p :: q :: rest, h =>
    have hg : g = slope p q :: slopes p q rest := (Except.ok.inj h).symm
    rw [hg]
    simp only [List.length_cons, slopes_length]

theorem gradient_spec {rows : List (Option Rat × Option Rat)} {g : List (Option Rat)} (h : gradient rows = .ok g)
    (hr : Rising rows) : g.length = rows.length ∧ ∀ i, i < rows.length → ∃ s, g[i]? = some s ∧ SlopeAt rows i s := by
  match rows, h with
  | p :: q :: rest, h =>
    have hg : g = slope p q :: slopes p q rest := (Except.ok.inj h).symm
    have near : ∀ i u v, (p :: q :: rest)[i]? = some u → (p :: q :: rest)[i + 1]? = some v →
        ∀ x0 y0 x1 y1, u = (some x0, y0) → v = (some x1, y1) → x0 < x1 := by
      intro i u v hu hv x0 y0 x1 y1 e1 e2
      subst e1; subst e2
      exact hr i x0 y0 x1 y1 hu hv
    refine ⟨by rw [hg]; simp only [List.length_cons, slopes_length], ?_⟩
    intro i hi
    cases i with
    | zero =>
      refine ⟨slope p q, by rw [hg]; rfl, Or.inl ⟨rfl, p, q, rfl, rfl, lineSlope_ok (near 0 p q rfl rfl)⟩⟩
    | succ i =>
      obtain ⟨u, v, h1, h2, h3⟩ := slopes_get rest p q i (by simp only [List.length_cons] at hi; omega)
      rcases h3 with ⟨h3, h4⟩ | ⟨w, h3, h4⟩
      · refine ⟨slope u v, by rw [hg, List.getElem?_cons_succ]; exact h4, Or.inr (Or.inl ⟨by omega, by omega, u, v, ?_, h2, ?_⟩)⟩
        · simpa using h1
        · exact lineSlope_ok (near i u v h1 h2)
      · refine ⟨middle u v w, by rw [hg, List.getElem?_cons_succ]; exact h4, Or.inr (Or.inr ⟨by omega, u, v, w, ?_, h2, h3, ?_⟩)⟩
        · simpa using h1
        · exact parabola_ok (near i u v h1 h2) (near (i + 1) v w h2 h3)

/-! ### smoothing -/

/-- the state of the smoothing after the values up to index `i` -/
def state (g : List (Option Rat)) (i : Nat) : Option (Rat × Rat) := (g.take (i + 1)).foldl ewmStep none

theorem ewmFrom_get (g : List (Option Rat)) : ∀ (s : Option (Rat × Rat)) (i : Nat), i < g.length →
    (ewmFrom s g)[i]? = some (((g.take (i + 1)).foldl ewmStep s).map Prod.fst) := by
  induction g with
  | nil => intro s i hi; simp at hi
  | cons v vs ih =>
    intro s i hi
    cases i with
    | zero => rfl
    | succ i =>
      show (((ewmStep s v).map Prod.fst) :: ewmFrom (ewmStep s v) vs)[i + 1]? = _
      rw [List.getElem?_cons_succ, ih _ i (by simp only [List.length_cons] at hi; omega)]
      rfl

theorem ewm_length (g : List (Option Rat)) : (ewm g).length = g.length := by
  have : ∀ (vs : List (Option Rat)) s, (ewmFrom s vs).length = vs.length := by
    intro vs
    induction vs with
    | nil => intro s; rfl
    | cons v vs ih => intro s; simp only [ewmFrom, List.length_cons, ih]
  exact this g none

theorem ewm_get (g : List (Option Rat)) (i : Nat) (hi : i < g.length) : (ewm g)[i]? = some ((state g i).map Prod.fst) :=
  ewmFrom_get g none i hi

theorem state_succ (g : List (Option Rat)) (i : Nat) (v : Option Rat) (h : g[i + 1]? = some v) :
    state g (i + 1) = ewmStep (state g i) v := by
  unfold state
  rw [List.take_add_one (i := i + 1), h]
  simp only [Option.toList_some, List.foldl_append, List.foldl_cons, List.foldl_nil]

theorem state_zero (g : List (Option Rat)) (v : Option Rat) (h : g[0]? = some v) : state g 0 = ewmStep none v := by
  cases g with
  | nil => cases h
  | cons a as =>
    simp only [List.getElem?_cons_zero, Option.some.injEq] at h
    subst h
    rfl

theorem decayed_zero (f : Nat → Rat) : decayed f 0 = f 0 := by
  unfold decayed
  simp [List.range_succ]

theorem decayed_succ (f : Nat → Rat) (i : Nat) : decayed f (i + 1) = decayed f i / 11 + f (i + 1) := by
  unfold decayed
  rw [List.range_succ (n := i + 1), List.map_append, List.sum_append]
  have : ((List.range (i + 1)).map (fun j => f j / 11 ^ (i + 1 - j))).sum =
      ((List.range (i + 1)).map (fun j => f j / 11 ^ (i - j))).sum / 11 := by
    have aux : ∀ l : List Nat, (∀ j ∈ l, j ≤ i) → (l.map (fun j => f j / 11 ^ (i + 1 - j))).sum =
        (l.map (fun j => f j / 11 ^ (i - j))).sum / 11 := by
      intro l
      induction l with
      | nil => intro _; simp
      | cons a l ih =>
        intro hl
        have ha : i + 1 - a = (i - a) + 1 := by have := hl a (by simp); omega
        simp only [List.map_cons, List.sum_cons]
        rw [ih (fun j hj => hl j (List.mem_cons_of_mem _ hj)), ha, pow_succ]
        field_simp
    exact aux _ (fun j hj => by have := List.mem_range.1 hj; omega)
  rw [this]
  simp

theorem indicator_of {g : List (Option Rat)} {j : Nat} {v : Option Rat} (h : g[j]? = some v) :
    indicator g j = v.elim 0 (fun _ => 1) := by
  unfold indicator
  rw [h]
  cases v <;> rfl

theorem value_of {g : List (Option Rat)} {j : Nat} {v : Option Rat} (h : g[j]? = some v) : valueOr0 g j = v.elim 0 id := by
  unfold valueOr0
  rw [h]
  cases v <;> rfl

/-- what the state of the smoothing holds -/
theorem state_inv (g : List (Option Rat)) : ∀ i, i < g.length →
    (state g i = none ∧ (∀ j, j ≤ i → g[j]? = some none) ∧ decayed (indicator g) i = 0 ∧ decayed (valueOr0 g) i = 0) ∨
    ∃ m w, state g i = some (m, w) ∧ 0 < w ∧ w = decayed (indicator g) i ∧ m * w = decayed (valueOr0 g) i := by
  intro i
  induction i with
  | zero =>
    intro hi
    obtain ⟨v, hv⟩ : ∃ v, g[0]? = some v := ⟨_, List.getElem?_eq_getElem hi⟩
    rw [state_zero g v hv, decayed_zero, decayed_zero]
    rw [indicator_of hv, value_of hv]
    cases v with
    | none =>
      left
      refine ⟨rfl, ?_, rfl, rfl⟩
      intro j hj
      have : j = 0 := by omega
      rw [this]; exact hv
    | some x =>
      right
      exact ⟨x, 1, rfl, by norm_num, rfl, by simp⟩
  | succ i ih =>
    intro hi
    obtain ⟨v, hv⟩ : ∃ v, g[i + 1]? = some v := ⟨_, List.getElem?_eq_getElem hi⟩
    rw [state_succ g i v hv, decayed_succ, decayed_succ]
    rw [indicator_of hv, value_of hv]
    rcases ih (by omega) with ⟨h1, h2, h3, h4⟩ | ⟨m, w, h1, h2, h3, h4⟩
    · rw [h1, h3, h4]
      cases v with
      | none =>
        left
        refine ⟨rfl, ?_, by simp, by simp⟩
        intro j hj
        rcases Nat.lt_or_ge j (i + 1) with h | h
        · exact h2 j (by omega)
        · have : j = i + 1 := by omega
          rw [this]; exact hv
      | some x =>
        right
        exact ⟨x, 1, rfl, by norm_num, by simp, by simp⟩
    · rw [h1, ← h3, ← h4]
      right
      cases v with
      | none => exact ⟨m, w / 11, rfl, by positivity, by simp, by simp only [Option.elim_none]; ring⟩
      | some x =>
        refine ⟨(w / 11 * m + x) / (w / 11 + 1), w / 11 + 1, rfl, by positivity, rfl, ?_⟩
        have : w / 11 + 1 ≠ 0 := by positivity
        simp only [Option.elim_some, id]
        field_simp

theorem ewm_smoothed (g : List (Option Rat)) (i : Nat) (hi : i < g.length) :
    ∃ m, (ewm g)[i]? = some m ∧ Smoothed g i m := by
  refine ⟨_, ewm_get g i hi, ?_⟩
  rcases state_inv g i hi with ⟨h1, h2, _, _⟩ | ⟨m, w, h1, h2, h3, h4⟩
  · left; rw [h1]; exact ⟨rfl, h2⟩
  · right
    refine ⟨m, by rw [h1]; rfl, by rw [← h3]; exact h2, by rw [← h3]; exact h4⟩

theorem smoothed_slopes {rows : List (Option Rat × Option Rat)} {g : List (Option Rat)} (h : gradient rows = .ok g)
    (hr : Rising rows) : SmoothedSlopes rows (ewm g) := by
  obtain ⟨hl, hs⟩ := gradient_spec h hr
  refine ⟨g, hl, by rw [ewm_length, hl], ?_⟩
  intro i hi
  obtain ⟨s, h1, h2⟩ := hs i hi
  obtain ⟨m, h3, h4⟩ := ewm_smoothed g i (by omega)
  exact ⟨s, m, h1, h3, h2, h4⟩

/-! ### C135: the slope of the voltage over the capacity -/

theorem grid_rising {c : Curve} {a b : Rat} (hab : a < b) (h : c.map Prod.fst = linspace a b 1001) :
    Rising (c.map (fun p => (some p.1, p.2))) := by
  intro i x0 y0 x1 y1 h0 h1
  have hs := Beep.Interp.linspace_strict a b 1001 hab
  rw [← h] at hs
  rw [List.getElem?_map] at h0 h1
  have g0 : (c.map Prod.fst)[i]? = some x0 := by
    rw [List.getElem?_map]
    cases hc : c[i]? with
    | none => rw [hc] at h0; cases h0
    | some p => rw [hc] at h0; simp only [Option.map_some, Option.some.injEq, Prod.mk.injEq] at h0 ⊢; exact h0.1
  have g1 : (c.map Prod.fst)[i + 1]? = some x1 := by
    rw [List.getElem?_map]
    cases hc : c[i + 1]? with
    | none => rw [hc] at h1; cases h1
    | some p => rw [hc] at h1; simp only [Option.map_some, Option.some.injEq, Prod.mk.injEq] at h1 ⊢; exact h1.1
  obtain ⟨l0, e0⟩ := List.getElem?_eq_some_iff.1 g0
  obtain ⟨l1, e1⟩ := List.getElem?_eq_some_iff.1 g1
  rw [← e0, ← e1]
  exact List.pairwise_iff_getElem.1 hs i (i + 1) l0 l1 (by omega)

/-- the grid of a match -/
theorem match_grid {pe ne1 pos neg real : Curve} {lli qpe qne x2 : Rat} {m : Matched} (hreal : Distinct real)
    (hw : ∃ p ∈ real, ∃ q ∈ real, p.2 ≠ none ∧ q.2 ≠ none ∧ p.1 ≠ q.1)
    (hm : matchAh pe ne1 pos neg lli qpe qne x2 real = .ok m) :
    ∃ a b, a < b ∧ m.real.map Prod.fst = linspace a b 1001 ∧ m.emulated.map Prod.fst = linspace a b 1001 ∧
      range m.real = some (a, b) := by
  obtain ⟨hres, em, a', b', hr', hem⟩ := matchAh_real hm
  obtain ⟨lo, hi, hb⟩ := bounded real
  obtain ⟨a, b, hab, hr, hr2, _, _, hgrid, _⟩ := resampled_fixed hreal hres (resampled_wide hres hw) hb
  rw [hr] at hr'
  obtain ⟨rfl, rfl⟩ := Prod.mk.inj (Option.some.inj hr')
  exact ⟨a, b, hab, by rw [hgrid, map_fst_grid], by rw [hem, map_fst_grid], hr2⟩

theorem dvdqOf_spec {c : Curve} {a b : Rat} (hab : a < b) (h : c.map Prod.fst = linspace a b 1001) :
    ∃ d, dvdqOf c = .ok ((c.map Prod.fst).zip d) ∧ SmoothedSlopes (c.map (fun p => (some p.1, p.2))) d ∧ d.length = c.length := by
  have hl : c.length = 1001 := by
    have := congrArg List.length h
    rwa [List.length_map, length_linspace] at this
  obtain ⟨g, hg⟩ := gradient_ok (rows := c.map (fun p => (some p.1, p.2))) (by rw [List.length_map]; omega)
  have hsm := smoothed_slopes hg (grid_rising hab h)
  refine ⟨ewm g, ?_, hsm, ?_⟩
  · unfold dvdqOf
    rw [hg]
  · have := (gradient_spec hg (grid_rising hab h)).1
    rw [ewm_length, this, List.length_map]

/-- The `dVdQ` of both profiles is on the capacities of the match, and is the smoothed slope of the voltage over the
capacity. -/
theorem C135_dvdq (pe ne1 pos neg real : Curve) (lli qpe qne x2 : Rat) (m : Matched) (hreal : Distinct real)
    (hw : ∃ p ∈ real, ∃ q ∈ real, p.2 ≠ none ∧ q.2 ≠ none ∧ p.1 ≠ q.1)
    (hm : matchAh pe ne1 pos neg lli qpe qne x2 real = .ok m) :
    ∃ A B, dvdq pe ne1 pos neg lli qpe qne x2 real = .ok (A, B) ∧
      A.map Prod.fst = m.real.map Prod.fst ∧ B.map Prod.fst = m.emulated.map Prod.fst ∧
      SmoothedSlopes (m.real.map (fun p => (some p.1, p.2))) (A.map Prod.snd) ∧
      SmoothedSlopes (m.emulated.map (fun p => (some p.1, p.2))) (B.map Prod.snd) := by
  obtain ⟨a, b, hab, h1, h2, _⟩ := match_grid hreal hw hm
  obtain ⟨d1, e1, s1, l1⟩ := dvdqOf_spec hab h1
  obtain ⟨d2, e2, s2, l2⟩ := dvdqOf_spec hab h2
  refine ⟨(m.real.map Prod.fst).zip d1, (m.emulated.map Prod.fst).zip d2, ?_, ?_, ?_, ?_, ?_⟩
  · unfold dvdq
    rw [hm]
    simp only
    rw [e1]
    simp only
    rw [e2]
  · exact List.map_fst_zip (by rw [List.length_map]; omega)
  · exact List.map_fst_zip (by rw [List.length_map]; omega)
  · rw [List.map_snd_zip (by rw [List.length_map]; omega)]; exact s1
  · rw [List.map_snd_zip (by rw [List.length_map]; omega)]; exact s2

theorem decayed_pos {f : Nat → Rat} {i : Nat} (h0 : ∀ j, j ≤ i → 0 < f j) : 0 < decayed f i := by
  induction i with
  | zero => rw [decayed_zero]; exact h0 0 (le_refl _)
  | succ i ih =>
    rw [decayed_succ]
    have := ih (fun j hj => h0 j (by omega))
    have := h0 (i + 1) (le_refl _)
    positivity

/-- a slope of rising rows -/
theorem slope_pos {rows : List (Option Rat × Option Rat)} (hx : Rising rows)
    (hy : ∀ (i : Nat) x0 y0 x1 y1, rows[i]? = some (x0, some y0) → rows[i + 1]? = some (x1, some y1) → y0 < y1)
    (hfull : ∀ p ∈ rows, ¬ Missing p) {i : Nat} {s : Option Rat} (h : SlopeAt rows i s) : ∃ t, s = some t ∧ 0 < t := by
  have line : ∀ (j : Nat) p q, rows[j]? = some p → rows[j + 1]? = some q → LineSlope p q s → ∃ t, s = some t ∧ 0 < t := by
    intro j p q hp hq hl
    rcases hl with ⟨_, hm | hm⟩ | ⟨x0, y0, x1, y1, t, rfl, rfl, rfl, e⟩
    · exact absurd hm (hfull p (List.mem_of_getElem? hp))
    · exact absurd hm (hfull q (List.mem_of_getElem? hq))
    · refine ⟨t, rfl, ?_⟩
      have h1 := hx j x0 (some y0) x1 (some y1) hp hq
      have h2 := hy j (some x0) y0 (some x1) y1 hp hq
      have h3 : 0 < t * (x1 - x0) := by rw [e]; linarith
      exact (mul_pos_iff_of_pos_right (by linarith)).1 h3
  rcases h with ⟨_, p, q, hp, hq, hl⟩ | ⟨hi, _, p, q, hp, hq, hl⟩ | ⟨hi, p, q, r, hp, hq, hr, hl⟩
  · exact line 0 p q hp hq hl
  · exact line (i - 1) p q hp (by rwa [Nat.sub_add_cancel hi]) hl
  · rcases hl with ⟨_, hm | hm | hm⟩ | ⟨x0, y0, x1, y1, x2, y2, a, b, c, rfl, rfl, rfl, e0, e1, e2, rfl⟩
    · exact absurd hm (hfull p (List.mem_of_getElem? hp))
    · exact absurd hm (hfull q (List.mem_of_getElem? hq))
    · exact absurd hm (hfull r (List.mem_of_getElem? hr))
    · refine ⟨_, rfl, ?_⟩
      have hq' : rows[i - 1 + 1]? = some (some x1, some y1) := by rwa [Nat.sub_add_cancel hi]
      have a1 := hx (i - 1) x0 (some y0) x1 (some y1) hp hq'
      have a2 := hx i x1 (some y1) x2 (some y2) hq hr
      have b1 := hy (i - 1) (some x0) y0 (some x1) y1 hp hq'
      have b2 := hy i (some x1) y1 (some x2) y2 hq hr
      have c1 : 0 < (x1 - x0) * (a * (x1 + x0) + b) := by
        have : (x1 - x0) * (a * (x1 + x0) + b) = y1 - y0 := by rw [e0, e1]; ring
        rw [this]; linarith
      have c2 : 0 < (x2 - x1) * (a * (x2 + x1) + b) := by
        have : (x2 - x1) * (a * (x2 + x1) + b) = y2 - y1 := by rw [e1, e2]; ring
        rw [this]; linarith
      have d1 := (mul_pos_iff_of_pos_left (by linarith : 0 < x1 - x0)).1 c1
      have d2 := (mul_pos_iff_of_pos_left (by linarith : 0 < x2 - x1)).1 c2
      have key : (2 * a * x1 + b) * (x2 - x0) = (x2 - x1) * (a * (x1 + x0) + b) + (x1 - x0) * (a * (x2 + x1) + b) := by ring
      have : 0 < (2 * a * x1 + b) * (x2 - x0) := by
        rw [key]
        have := mul_pos (by linarith : 0 < x2 - x1) d1
        have := mul_pos (by linarith : 0 < x1 - x0) d2
        linarith
      exact (mul_pos_iff_of_pos_right (by linarith)).1 this

theorem smoothed_pos {rows : List (Option Rat × Option Rat)} {d : List (Option Rat)} (h : SmoothedSlopes rows d) (hx : Rising rows)
    (hy : ∀ (i : Nat) x0 y0 x1 y1, rows[i]? = some (x0, some y0) → rows[i + 1]? = some (x1, some y1) → y0 < y1)
    (hfull : ∀ p ∈ rows, ¬ Missing p) : ∀ v ∈ d, ∃ t, v = some t ∧ 0 < t := by
  obtain ⟨g, hg, hd, hall⟩ := h
  have gp : ∀ j, j < rows.length → ∃ t, g[j]? = some (some t) ∧ 0 < t := by
    intro j hj
    obtain ⟨s, _, h1, _, h2, _⟩ := hall j hj
    obtain ⟨t, rfl, ht⟩ := slope_pos hx hy hfull h2
    exact ⟨t, h1, ht⟩
  intro v hv
  obtain ⟨i, hi⟩ := List.getElem?_of_mem hv
  have hlt : i < rows.length := by rw [← hd]; exact (List.getElem?_eq_some_iff.1 hi).1
  obtain ⟨s, m, _, h2, _, h4⟩ := hall i hlt
  rw [hi] at h2
  cases h2
  rcases h4 with ⟨_, h4⟩ | ⟨x, rfl, h5, h6⟩
  · obtain ⟨t, ht, _⟩ := gp i hlt
    rw [h4 i (le_refl _)] at ht
    cases ht
  · refine ⟨x, rfl, ?_⟩
    have : 0 < decayed (valueOr0 g) i := by
      apply decayed_pos
      intro j hj
      obtain ⟨t, ht, hp⟩ := gp j (by omega)
      rw [value_of ht]
      exact hp
    rw [← h6] at this
    exact (mul_pos_iff_of_pos_right h5).1 this

theorem dvdq_rows_pos {c : Curve} {a b : Rat} (hab : a < b) (h : c.map Prod.fst = linspace a b 1001) {d : List (Option Rat)}
    (hs : SmoothedSlopes (c.map (fun p => (some p.1, p.2))) d) (hr : RisingVoltage c) : ∀ v ∈ d, ∃ t, v = some t ∧ 0 < t := by
  refine smoothed_pos hs (grid_rising hab h) ?_ ?_
  · intro i x0 y0 x1 y1 h0 h1
    rw [List.getElem?_map] at h0 h1
    cases hc : c[i]? with
    | none => rw [hc] at h0; cases h0
    | some p =>
      cases hc1 : c[i + 1]? with
      | none => rw [hc1] at h1; cases h1
      | some q =>
        rw [hc] at h0
        rw [hc1] at h1
        obtain ⟨p1, p2⟩ := p
        obtain ⟨q1, q2⟩ := q
        simp only [Option.map_some, Option.some.injEq, Prod.mk.injEq] at h0 h1
        obtain ⟨_, rfl⟩ := h0
        obtain ⟨_, rfl⟩ := h1
        exact hr.2 i _ _ _ _ hc hc1
  · intro p hp
    obtain ⟨q, hq, rfl⟩ := List.mem_map.1 hp
    rintro (hm | hm)
    · cases hm
    · exact hr.1 q hq hm

/-- The `dVdQ` of a profile whose voltage rises with the capacity is positive everywhere. -/
theorem C135_rising (pe ne1 pos neg real : Curve) (lli qpe qne x2 : Rat) (m : Matched) (hreal : Distinct real)
    (hw : ∃ p ∈ real, ∃ q ∈ real, p.2 ≠ none ∧ q.2 ≠ none ∧ p.1 ≠ q.1)
    (hm : matchAh pe ne1 pos neg lli qpe qne x2 real = .ok m) :
    ∃ A B, dvdq pe ne1 pos neg lli qpe qne x2 real = .ok (A, B) ∧
      (RisingVoltage m.real → ∀ r ∈ A, ∃ t, r.2 = some t ∧ 0 < t) ∧
      (RisingVoltage m.emulated → ∀ r ∈ B, ∃ t, r.2 = some t ∧ 0 < t) := by
  obtain ⟨a, b, hab, h1, h2, _⟩ := match_grid hreal hw hm
  obtain ⟨A, B, hd, _, _, s1, s2⟩ := C135_dvdq pe ne1 pos neg real lli qpe qne x2 m hreal hw hm
  refine ⟨A, B, hd, ?_, ?_⟩
  · intro hr r hr'
    exact dvdq_rows_pos hab h1 s1 hr _ (List.mem_map_of_mem hr')
  · intro hr r hr'
    exact dvdq_rows_pos hab h2 s2 hr _ (List.mem_map_of_mem hr')

theorem slope_missing_row {rows : List (Option Rat × Option Rat)} {i : Nat} {s : Option Rat} (h : SlopeAt rows i s)
    {p : Option Rat × Option Rat} (hp : rows[i]? = some p) (hm : Missing p) : s = none := by
  have no : ∀ x y : Rat, ¬ Missing (some x, some y) := by
    intro x y h
    rcases h with h | h <;> cases h
  rcases h with ⟨rfl, u, v, hu, hv, hl⟩ | ⟨hi, _, u, v, hu, hv, hl⟩ | ⟨hi, u, v, w, hu, hv, hw, hl⟩
  · rw [hp] at hu; cases hu
    rcases hl with ⟨h, _⟩ | ⟨x0, y0, x1, y1, t, rfl, _⟩
    · exact h
    · exact absurd hm (no _ _)
  · rw [hp] at hv; cases hv
    rcases hl with ⟨h, _⟩ | ⟨x0, y0, x1, y1, t, _, rfl, _⟩
    · exact h
    · exact absurd hm (no _ _)
  · rw [hp] at hv; cases hv
    rcases hl with ⟨h, _⟩ | ⟨x0, y0, x1, y1, x2, y2, a, b, c, _, rfl, _⟩
    · exact h
    · exact absurd hm (no _ _)

/-- a missing value keeps the smoothed one -/
theorem smoothed_gap {g : List (Option Rat)} {i : Nat} {m m' : Option Rat} (h : Smoothed g i m) (h' : Smoothed g (i + 1) m')
    (hg : g[i + 1]? = some none) : m' = m := by
  have ei : decayed (indicator g) (i + 1) = decayed (indicator g) i / 11 := by
    rw [decayed_succ, indicator_of hg]; simp
  have ev : decayed (valueOr0 g) (i + 1) = decayed (valueOr0 g) i / 11 := by
    rw [decayed_succ, value_of hg]; simp
  have zero : ∀ n, (∀ j, j ≤ n → g[j]? = some none) → decayed (indicator g) n = 0 := by
    intro n
    induction n with
    | zero => intro h; rw [decayed_zero, indicator_of (h 0 (le_refl _))]; rfl
    | succ n ih =>
      intro h
      rw [decayed_succ, ih (fun j hj => h j (by omega)), indicator_of (h (n + 1) (le_refl _))]
      simp
  rcases h with ⟨rfl, h⟩ | ⟨x, rfl, h1, h2⟩
  · rcases h' with ⟨rfl, _⟩ | ⟨x', rfl, h1', _⟩
    · rfl
    · rw [ei, zero i h] at h1'
      simp at h1'
  · rcases h' with ⟨rfl, h'⟩ | ⟨x', rfl, h1', h2'⟩
    · rw [zero i (fun j hj => h' j (by omega))] at h1
      exact absurd h1 (lt_irrefl _)
    · rw [ei, ev] at h2'
      congr 1
      have : x' * decayed (indicator g) i = x * decayed (indicator g) i := by linarith
      exact mul_right_cancel₀ h1.ne' this

/-- A row without a voltage gets the `dVdQ` of the row before, not a missing one: this gives the emulated profile slopes at
capacities at which it does not exist. -/
theorem C135_gap_violated (pe ne1 pos neg real : Curve) (lli qpe qne x2 : Rat) (m : Matched) (hreal : Distinct real)
    (hw : ∃ p ∈ real, ∃ q ∈ real, p.2 ≠ none ∧ q.2 ≠ none ∧ p.1 ≠ q.1)
    (hm : matchAh pe ne1 pos neg lli qpe qne x2 real = .ok m) :
    ∃ A B, dvdq pe ne1 pos neg lli qpe qne x2 real = .ok (A, B) ∧
      (∀ (i : Nat) q q', m.emulated[i + 1]? = some (q, none) → ∀ d d', B[i]? = some (q', d) → B[i + 1]? = some (q, d') → d' = d) ∧
      ((∃ x v x' v', m.emulated[0]? = some (x, some v) ∧ m.emulated[1]? = some (x', some v')) → ∀ r ∈ B, r.2 ≠ none) := by
  obtain ⟨A, B, hd, _, hB, s1, s2⟩ := C135_dvdq pe ne1 pos neg real lli qpe qne x2 m hreal hw hm
  refine ⟨A, B, hd, ?_, ?_⟩
  · obtain ⟨g, hg, hl, hall⟩ := s2
    intro i q q' hi d d' h0 h1
    have hrow : (m.emulated.map (fun p => (some p.1, p.2)))[i + 1]? = some (some q, none) := by
      rw [List.getElem?_map, hi]; rfl
    have hlt : i + 1 < (m.emulated.map (fun p => (some p.1, p.2))).length := (List.getElem?_eq_some_iff.1 hrow).1
    obtain ⟨s, e, g1, d1, sl1, sm1⟩ := hall (i + 1) hlt
    obtain ⟨s0, e0, g0, d0, sl0, sm0⟩ := hall i (by omega)
    rw [List.getElem?_map, h1] at d1
    rw [List.getElem?_map, h0] at d0
    cases d1
    cases d0
    have : s = none := slope_missing_row sl1 hrow (Or.inr rfl)
    subst this
    exact smoothed_gap sm0 sm1 g1
  · rintro ⟨x, v, x', v', e0, e1⟩ r hr hn
    obtain ⟨g, hg, hl, hall⟩ := s2
    obtain ⟨i, hi⟩ := List.getElem?_of_mem hr
    have hBi : (B.map Prod.snd)[i]? = some none := by rw [List.getElem?_map, hi, ← hn]; rfl
    have hlt : i < (m.emulated.map (fun p => (some p.1, p.2))).length := by
      rw [← hl]; exact (List.getElem?_eq_some_iff.1 hBi).1
    obtain ⟨_, e, _, d1, _, sm1⟩ := hall i hlt
    rw [hBi] at d1
    cases d1
    rcases sm1 with ⟨_, h⟩ | ⟨y, hy, _⟩
    · have r0 : (m.emulated.map (fun p => (some p.1, p.2)))[0]? = some (some x, some v) := by
        rw [List.getElem?_map, e0]; rfl
      have r1 : (m.emulated.map (fun p => (some p.1, p.2)))[1]? = some (some x', some v') := by
        rw [List.getElem?_map, e1]; rfl
      obtain ⟨s, _, g0, _, sl0, _⟩ := hall 0 (by omega)
      rw [h 0 (by omega)] at g0
      cases g0
      rcases sl0 with ⟨_, p, q, hp, hq, hl⟩ | ⟨h, _⟩ | ⟨h, _⟩
      · rw [r0] at hp
        rw [r1] at hq
        cases hp
        cases hq
        rcases hl with ⟨_, (h | h) | (h | h)⟩ | ⟨_, _, _, _, _, _, _, h, _⟩ <;> cases h
      · omega
      · omega
    · cases hy

/-! ### the sample electrodes -/

theorem matchAh_emulated {pe ne1 pos neg real p n : Curve} {lli qpe qne x2 : Rat} {m : Matched}
    (hi : imposeScale pe ne1 pos neg lli qpe qne x2 = .ok (p, n))
    (h : matchAh pe ne1 pos neg lli qpe qne x2 real = .ok m) :
    ∃ k z a b, argminN ((clipped (fullCell p n)).map Prod.snd) = some k ∧ (clipped (fullCell p n))[k]? = some z ∧
      range (present real) = some (a, b) ∧
      m.emulated = (linspace a b 1001).map (fun x => (x, interp (present (moveBy (- z.1) (clipped (fullCell p n)))) x)) := by
  unfold matchAh at h
  rw [hi] at h
  simp only at h
  cases hk : argminN ((clipped (fullCell p n)).map Prod.snd) with
  | none => rw [hk] at h; cases h
  | some k =>
    rw [hk] at h
    simp only at h
    cases hz : (clipped (fullCell p n))[k]? with
    | none => rw [hz] at h; cases h
    | some z =>
      rw [hz] at h
      simp only at h
      unfold onReal at h
      cases hr : range (present real) with
      | none => rw [hr] at h; cases h
      | some r =>
        obtain ⟨a, b⟩ := r
        rw [hr] at h
        simp only [Except.ok.injEq] at h
        exact ⟨k, z, a, b, rfl, hz, rfl, by rw [← h]⟩

/-- the emulated profile of the sample electrodes along a measured profile of 0 Ah to 100 Ah: it starts with 2.7 V at 0 Ah and
has no voltage at 100 Ah -/
theorem sample_emulated : ∃ m, matchAh samplePe sampleNe [] [] 0 100 100 1 samplePe = .ok m ∧ m.emulated.length = 1001 ∧
    (∀ j : Nat, j ≤ 600 → m.emulated[j]? = some ((j : Rat) / 10, some (27 / 10 + (j : Rat) / 400))) ∧
    (∀ j : Nat, 600 < j → j < 1001 → m.emulated[j]? = some ((j : Rat) / 10, none)) ∧
    m.real.length = 1001 ∧ (∀ j : Nat, j < 1001 → m.real[j]? = some ((j : Rat) / 10, some (2 + (j : Rat) / 400))) := by
  obtain ⟨m, hm⟩ := (C108_refused samplePe sampleNe [] [] sampleNe samplePe sampleNe samplePe 0 100 100 1 rfl
    samplePe_distinct sampleNe_distinct (by norm_num) (by norm_num) sample_scale).2
    ⟨⟨280, 28, 27 / 10, 0, (sample_row ..).2 ⟨by norm_num, by norm_num, by norm_num, rfl⟩, by norm_num, by norm_num⟩,
      ⟨_, List.mem_of_getElem? (samplePe_get 0 (by norm_num)), by simp⟩⟩
  refine ⟨m, hm, ?_⟩
  obtain ⟨k, z, a, b, hk, hz, hr, hem⟩ := matchAh_emulated sample_scale hm
  have hab : a = 0 ∧ b = 100 := by
    obtain ⟨⟨u, hu, rfl⟩, ⟨w, hw, rfl⟩, hall⟩ := (range_iff ..).1 hr
    have h0 := hall _ (present_mem.2 ⟨List.mem_of_getElem? (samplePe_get 0 (by norm_num)), by simp⟩)
    have h1 := hall _ (present_mem.2 ⟨List.mem_of_getElem? (samplePe_get 1000 (by norm_num)), by simp⟩)
    have bd : ∀ r ∈ present samplePe, 0 ≤ r.1 ∧ r.1 ≤ 100 := by
      intro r hr
      obtain ⟨j, hj⟩ := List.getElem?_of_mem (present_mem.1 hr).1
      have hlt : j < 1001 := by
        have := (List.getElem?_eq_some_iff.1 hj).1
        simpa [samplePe] using this
      rw [samplePe_get j hlt] at hj
      cases hj
      have : (j : Rat) ≤ 1000 := by exact_mod_cast (by omega : j ≤ 1000)
      constructor
      · positivity
      · simp only; linarith
    have b0 := bd u hu
    have b1 := bd w hw
    norm_num at h0 h1
    constructor <;> linarith [h0.1, h1.2, b0.1, b1.2]
  obtain ⟨rfl, rfl⟩ := hab
  -- the full cell
  have crow : ∀ (j : Nat) (x v : Rat), (clipped (fullCell samplePe sampleNe))[j]? = some (x, some v) ↔
      j < 1001 ∧ x = (j : Rat) / 10 ∧ v = 2 + (j : Rat) / 400 ∧ 27 / 10 ≤ v ∧ v ≤ 42 / 10 := by
    intro j x v
    rw [clipped_row samplePe sampleNe sample_axis]
    constructor
    · rintro ⟨e, f, hrow, h1, h2, rfl⟩
      obtain ⟨h3, h4, rfl, rfl⟩ := (sample_row ..).1 hrow
      exact ⟨h3, h4, by ring, by linarith, by linarith⟩
    · rintro ⟨h1, h2, h3, h4, h5⟩
      exact ⟨v, 0, (sample_row ..).2 ⟨h1, h2, h3, rfl⟩, by linarith, by linarith, by ring⟩
  have hz1 : z.1 = 28 := by
    obtain ⟨w, hw, hall⟩ := (argminN_some _ k).1 hk
    obtain ⟨zx, zv⟩ := z
    rw [List.getElem?_map, hz] at hw
    simp only [Option.map_some, Option.some.injEq] at hw
    rw [hw] at hz
    obtain ⟨h1, h2, h3, h4, h5⟩ := (crow k zx w).1 hz
    have hle := (hall 280 (27 / 10) (by
      rw [List.getElem?_map, (crow 280 28 (27 / 10)).2 ⟨by norm_num, by norm_num, by norm_num, by norm_num, by norm_num⟩]; rfl)).1
    simp only
    linarith
  rw [hz1] at hem
  have mem : ∀ (j : Nat), 280 ≤ j → j ≤ 880 → ((j : Rat) / 10 - 28, some (2 + (j : Rat) / 400)) ∈
      present (moveBy (-28) (clipped (fullCell samplePe sampleNe))) := by
    intro j h1 h2
    have e1 : (280 : Rat) ≤ j := by exact_mod_cast h1
    have e2 : (j : Rat) ≤ 880 := by exact_mod_cast h2
    refine present_mem.2 ⟨List.mem_map.2 ⟨_, List.mem_of_getElem? ((crow j ((j : Rat) / 10) (2 + (j : Rat) / 400)).2
      ⟨by omega, rfl, rfl, by linarith, by linarith⟩), ?_⟩, by simp⟩
    simp only [Prod.mk.injEq, and_true]
    ring
  have hcd : Distinct (clipped (fullCell samplePe sampleNe)) := (scale_distinct (lli := 0) (qpe := 100) (qne := 100) (rfl : blend sampleNe [] [] 1 = .ok sampleNe)
    samplePe_distinct sampleNe_distinct (by norm_num) (by norm_num)
    ⟨_, List.mem_of_getElem? (samplePe_get 0 (by norm_num)), _, List.mem_of_getElem? (samplePe_get 1 (by norm_num)), by norm_num⟩
    sample_scale).2.2
  have hdist := present_distinct (moveBy_distinct (d := - 28) hcd)
  have hne := List.ne_nil_of_mem (mem 280 (by norm_num) (by norm_num))
  have get : ∀ (j : Nat) (x : Rat) (v : Option Rat), j < 1001 → x = (j : Rat) / 10 →
      OnCurve (present (moveBy (-28) (clipped (fullCell samplePe sampleNe)))) x v → m.emulated[j]? = some (x, v) := by
    intro j x v hj hx hc
    rw [hem, List.getElem?_map, (even_linspace 0 100).2 j hj]
    have : 0 + (j : Rat) * (100 - 0) / 1000 = x := by rw [hx]; ring
    rw [Option.map_some, this, (interp_iff _ hdist hne x v).2 hc]
  refine ⟨by rw [hem, List.length_map, length_linspace], ?_, ?_, ?_, ?_⟩
  · intro j hj
    refine get j _ _ (by omega) rfl (Or.inl ?_)
    have := mem (j + 280) (by omega) (by omega)
    rw [show ((j + 280 : Nat) : Rat) / 10 - 28 = (j : Rat) / 10 by push_cast; ring,
      show 2 + ((j + 280 : Nat) : Rat) / 400 = 27 / 10 + (j : Rat) / 400 by push_cast; ring] at this
    exact this
  · intro j hj hj'
    refine get j _ _ hj' rfl (Or.inr (Or.inr ⟨Or.inr ?_, rfl⟩))
    intro r hr
    obtain ⟨h1, h2⟩ := present_mem.1 hr
    obtain ⟨rx, rv⟩ := r
    cases rv with
    | none => exact absurd rfl h2
    | some v =>
      obtain ⟨i, hi⟩ := List.getElem?_of_mem h1
      have hi' := (getElem?_moveBy ..).1 hi
      obtain ⟨h3, h4, h5, _, h6⟩ := (crow i _ v).1 hi'
      have : (600 : Rat) < j := by exact_mod_cast hj
      simp only
      linarith
  · obtain ⟨hres, _⟩ := matchAh_real hm
    obtain ⟨a, b, _, _, e⟩ := resampled_ok hres
    rw [e, List.length_map, length_linspace]
  · intro j hj
    obtain ⟨hres, _⟩ := matchAh_real hm
    obtain ⟨a, b, hr', _, e⟩ := resampled_ok hres
    rw [hr] at hr'
    obtain ⟨rfl, rfl⟩ := Prod.mk.inj (Option.some.inj hr')
    have hg := samplePe_get j hj
    rw [e, List.getElem?_map, (even_linspace 0 100).2 j hj, Option.map_some]
    have : 0 + (j : Rat) * (100 - 0) / 1000 = (j : Rat) / 10 := by ring
    have hmem := present_mem.2 ⟨List.mem_of_getElem? hg, by simp⟩
    rw [this, (interp_iff _ (present_distinct samplePe_distinct) (List.ne_nil_of_mem hmem) _ _).2 (Or.inl hmem)]

theorem samplePe_wide : ∃ p ∈ samplePe, ∃ q ∈ samplePe, p.2 ≠ none ∧ q.2 ≠ none ∧ p.1 ≠ q.1 :=
  ⟨_, List.mem_of_getElem? (samplePe_get 0 (by norm_num)), _, List.mem_of_getElem? (samplePe_get 1 (by norm_num)),
    by simp, by simp, by norm_num⟩

/-- the sample electrodes have no voltage at 100 Ah, but a `dVdQ` -/
example : ∃ m A B, matchAh samplePe sampleNe [] [] 0 100 100 1 samplePe = .ok m ∧
    dvdq samplePe sampleNe [] [] 0 100 100 1 samplePe = .ok (A, B) ∧ m.emulated[1000]? = some (100, none) ∧
    ∃ d, B[1000]? = some (100, some d) := by
  obtain ⟨m, hm, _, h01, h2, _⟩ := sample_emulated
  have h0 := h01 0 (by norm_num)
  have h1 := h01 1 (by norm_num)
  have h2 := h2 1000 (by norm_num) (by norm_num)
  norm_num at h2
  obtain ⟨A, B, hd, _, hall⟩ := C135_gap_violated _ _ _ _ _ _ _ _ _ m samplePe_distinct samplePe_wide hm
  obtain ⟨A', B', hd', _, hB, _⟩ := C135_dvdq _ _ _ _ _ _ _ _ _ m samplePe_distinct samplePe_wide hm
  rw [hd] at hd'
  obtain ⟨rfl, rfl⟩ := Prod.mk.inj (Except.ok.inj hd')
  have hb : (B.map Prod.fst)[1000]? = some 100 := by rw [hB, List.getElem?_map, h2]; rfl
  rw [List.getElem?_map] at hb
  cases hB1 : B[1000]? with
  | none => rw [hB1] at hb; cases hb
  | some r =>
    rw [hB1] at hb
    obtain ⟨q, d⟩ := r
    simp only [Option.map_some, Option.some.injEq] at hb
    subst hb
    cases d with
    | none => exact absurd rfl (hall ⟨_, _, _, _, h0, h1⟩ _ (List.mem_of_getElem? hB1))
    | some d => exact ⟨m, A, B, hm, hd, h2, d, hB1⟩

/-! ### C136: the slope of the capacity over the voltage -/

theorem range_fst {c c' : Curve} (h : c.map Prod.fst = c'.map Prod.fst) : range c = range c' := by
  have : ∀ d : Curve, d.map (fun p => some p.1) = (d.map Prod.fst).map some := fun d => by rw [List.map_map]; rfl
  unfold range
  rw [this, this, h]

theorem fill_above {pts : Curve} {lo hi : Rat} (hr : range pts = some (lo, hi)) {below above x : Rat} (hx : hi < x) :
    interpFill below above pts x = some above := by
  have hext := (range_iff ..).1 hr
  obtain ⟨⟨p, hp, rfl⟩, _, hall⟩ := hext
  unfold range at hr
  unfold interpFill
  cases h1 : minN (pts.map (fun p => some p.1)) with
  | none => rw [h1] at hr; simp at hr
  | some a => cases h2 : maxN (pts.map (fun p => some p.1)) with
    | none => rw [h1, h2] at hr; simp at hr
    | some b =>
      rw [h1, h2] at hr
      simp only [Option.some.injEq, Prod.mk.injEq] at hr
      obtain ⟨rfl, rfl⟩ := hr
      simp only
      rw [if_neg (by have := hall p hp; intro h; linarith [this.2]), if_pos hx]

theorem filterMap_zip_swap (d : List (Option Rat)) : ∀ c : Curve,
    (d.zip c).filterMap (fun r => r.2.2.map (fun v => (v, r.1))) = columnByVoltage c d := by
  unfold columnByVoltage
  induction d with
  | nil => intro c; simp
  | cons x d ih =>
    intro c
    cases c with
    | nil => rfl
    | cons p c =>
      simp only [List.zip_cons_cons, List.filterMap_cons]
      rw [ih c]

theorem filterMap_zip_q (d : List (Option Rat)) : ∀ c : Curve, d.length = c.length →
    (d.zip c).filterMap (fun r => r.2.2.map (fun v => (v, some r.2.1))) = capacityByVoltage c := by
  unfold capacityByVoltage
  induction d with
  | nil =>
    intro c h
    have : c = [] := List.length_eq_zero_iff.1 h.symm
    subst this
    rfl
  | cons x d ih =>
    intro c h
    cases c with
    | nil => cases h
    | cons p c =>
      simp only [List.zip_cons_cons, List.filterMap_cons]
      rw [ih c (by simpa using h)]

theorem column_fst (d : List (Option Rat)) : ∀ c : Curve, d.length = c.length →
    (columnByVoltage c d).map Prod.fst = (capacityByVoltage c).map Prod.fst := by
  unfold columnByVoltage capacityByVoltage
  induction d with
  | nil =>
    intro c h
    have : c = [] := List.length_eq_zero_iff.1 h.symm
    subst this
    rfl
  | cons x d ih =>
    intro c h
    cases c with
    | nil => cases h
    | cons p c =>
      obtain ⟨q, v⟩ := p
      simp only [List.zip_cons_cons, List.filterMap_cons]
      have := ih c (by simpa using h)
      cases v with
      | none => exact this
      | some v => simp only [Option.map_some, List.map_cons]; rw [this]

theorem overV_spec {top : Rat} {c : Curve} (hl : c.length = 1001) (hv : ∃ p ∈ c, p.2 ≠ none)
    (hrise : Rising (c.map (fun p => (p.2, some p.1)))) (hd : Distinct (capacityByVoltage c)) :
    ∃ rows d, overV top c = .ok rows ∧ SmoothedSlopes (c.map (fun p => (p.2, some p.1))) d ∧
      rows.map OverV.volt = linspace (27 / 10) (42 / 10) 1001 ∧
      ∀ r ∈ rows, ((∀ p ∈ capacityByVoltage c, r.volt < p.1) → r.dqdv = 0 ∧ r.q = some 0) ∧
        ((∀ p ∈ capacityByVoltage c, p.1 < r.volt) → r.dqdv = 0 ∧ r.q = some top) ∧
        ((∃ p ∈ capacityByVoltage c, p.1 ≤ r.volt) → (∃ p ∈ capacityByVoltage c, r.volt ≤ p.1) →
          OnCurve (capacityByVoltage c) r.volt r.q ∧ ∃ s, OnCurve (columnByVoltage c d) r.volt s ∧ Filled s r.dqdv) := by
  obtain ⟨g, hg⟩ := gradient_ok (rows := c.map (fun p => (p.2, some p.1))) (by rw [List.length_map]; omega)
  have hsm := smoothed_slopes hg hrise
  have hgl : (ewm g).length = c.length := by rw [ewm_length, (gradient_spec hg hrise).1, List.length_map]
  have hdq : dqdvOf c = .ok ((ewm g).zip c) := by unfold dqdvOf; rw [hg]
  have hq : qPoints ((ewm g).zip c) = capacityByVoltage c := filterMap_zip_q (ewm g) c hgl
  have hs : dqdvPoints ((ewm g).zip c) = columnByVoltage c (ewm g) := filterMap_zip_swap (ewm g) c
  have hne : capacityByVoltage c ≠ [] := by
    obtain ⟨p, hp, hpv⟩ := hv
    obtain ⟨q, v⟩ := p
    cases v with
    | none => exact absurd rfl hpv
    | some v => exact List.ne_nil_of_mem (List.mem_filterMap.2 ⟨_, hp, rfl⟩)
  have hfst := column_fst (ewm g) c hgl
  have hd' : Distinct (columnByVoltage c (ewm g)) := by unfold Distinct; rw [hfst]; exact hd
  refine ⟨(linspace lowerV upperV 1001).map (fun v =>
      ⟨v, (interpFill 0 0 (columnByVoltage c (ewm g)) v).getD 0, interpFill 0 top (capacityByVoltage c) v⟩), ewm g, ?_, hsm, ?_, ?_⟩
  · unfold overV
    rw [hdq]
    simp only
    rw [hq, hs, if_neg (by rw [List.isEmpty_iff]; exact hne)]
  · rw [List.map_map]
    exact List.map_id _
  · intro r hr
    obtain ⟨v, _, rfl⟩ := List.mem_map.1 hr
    simp only
    cases hrg : range (capacityByVoltage c) with
    | none => exact absurd ((range_none _).1 hrg) hne
    | some ab =>
      obtain ⟨lo, hi⟩ := ab
      have hrg' : range (columnByVoltage c (ewm g)) = some (lo, hi) := by rw [range_fst hfst]; exact hrg
      obtain ⟨⟨pl, hpl, el⟩, ⟨ph, hph, eh⟩, hall⟩ := (range_iff ..).1 hrg
      obtain ⟨⟨pl', hpl', el'⟩, _, hall'⟩ := (range_iff ..).1 hrg'
      refine ⟨?_, ?_, ?_⟩
      · intro h
        have hx : v < lo := by rw [← el]; exact h pl hpl
        have hlh : lo ≤ hi := by rw [← el]; exact (hall pl hpl).2
        rw [(Beep.Props.IntracellFeatures.fill_ok hd hrg (by linarith)).1 h,
          (Beep.Props.IntracellFeatures.fill_ok hd' hrg' (by linarith)).1 (fun p hp => lt_of_lt_of_le hx (hall' p hp).1)]
        exact ⟨rfl, rfl⟩
      · intro h
        have hx : hi < v := by rw [← eh]; exact h ph hph
        rw [fill_above hrg hx, fill_above hrg' hx]
        exact ⟨rfl, rfl⟩
      · rintro ⟨p, hp, h1⟩ ⟨p', hp', h2⟩
        have hx : v ≤ hi := le_trans h2 (hall p' hp').2
        have hx' : lo ≤ v := le_trans (hall p hp).1 h1
        refine ⟨(Beep.Props.IntracellFeatures.fill_ok hd hrg hx).2 ⟨p, hp, h1⟩, interpFill 0 0 (columnByVoltage c (ewm g)) v,
          (Beep.Props.IntracellFeatures.fill_ok hd' hrg' hx).2 ⟨pl', hpl', by rw [el']; exact hx'⟩, ?_⟩
        cases interpFill 0 0 (columnByVoltage c (ewm g)) v with
        | none => exact Or.inr ⟨rfl, rfl⟩
        | some t => exact Or.inl rfl

/-- the rows of `dQdV` that belong to a profile with capacities and voltages `c`; `top` is the largest measured capacity -/
def OverVoltage (top : Rat) (c : Curve) (rows : List OverV) : Prop :=
  Even (rows.map OverV.volt) (27 / 10) (42 / 10) ∧ ∃ d, SmoothedSlopes (c.map (fun p => (p.2, some p.1))) d ∧
    ∀ r ∈ rows, ((∀ p ∈ capacityByVoltage c, r.volt < p.1) → r.dqdv = 0 ∧ r.q = some 0) ∧
      ((∀ p ∈ capacityByVoltage c, p.1 < r.volt) → r.dqdv = 0 ∧ r.q = some top) ∧
      ((∃ p ∈ capacityByVoltage c, p.1 ≤ r.volt) → (∃ p ∈ capacityByVoltage c, r.volt ≤ p.1) →
        OnCurve (capacityByVoltage c) r.volt r.q ∧ ∃ s, OnCurve (columnByVoltage c d) r.volt s ∧ Filled s r.dqdv)

/-- The `dQdV` of both profiles is on 1001 evenly spaced voltages from 2.7 V to 4.2 V.  It is the smoothed slope of the
capacity over the voltage within the voltages of the profile and 0 outside; the capacity is the one of the profile within
them, 0 below and the largest measured one above. -/
theorem C136_dqdv (pe ne1 pos neg real : Curve) (lli qpe qne x2 : Rat) (m : Matched) (hreal : Distinct real)
    (hw : ∃ p ∈ real, ∃ q ∈ real, p.2 ≠ none ∧ q.2 ≠ none ∧ p.1 ≠ q.1)
    (hm : matchAh pe ne1 pos neg lli qpe qne x2 real = .ok m) (hv : ∃ p ∈ m.emulated, p.2 ≠ none)
    (hr1 : Rising (m.real.map (fun p => (p.2, some p.1)))) (hd1 : Distinct (capacityByVoltage m.real))
    (hr2 : Rising (m.emulated.map (fun p => (p.2, some p.1)))) (hd2 : Distinct (capacityByVoltage m.emulated)) :
    ∃ A B top, dqdv pe ne1 pos neg lli qpe qne x2 real = .ok (A, B) ∧ (∃ v, (top, v) ∈ m.real) ∧ (∀ p ∈ m.real, p.1 ≤ top) ∧
      OverVoltage top m.real A ∧ OverVoltage top m.emulated B := by
  obtain ⟨a, b, hab, h1, h2, hr⟩ := match_grid hreal hw hm
  have hl1 : m.real.length = 1001 := by have := congrArg List.length h1; rwa [List.length_map, length_linspace] at this
  have hl2 : m.emulated.length = 1001 := by have := congrArg List.length h2; rwa [List.length_map, length_linspace] at this
  have hv1 : ∃ p ∈ m.real, p.2 ≠ none := by
    obtain ⟨hres, _⟩ := matchAh_real hm
    obtain ⟨lo, hi, hb⟩ := bounded real
    have hne : m.real ≠ [] := by intro h; rw [h] at hl1; cases hl1
    obtain ⟨p, hp⟩ := List.exists_mem_of_ne_nil _ hne
    obtain ⟨v, hv, _⟩ := resampled_full hreal hres hb p hp
    exact ⟨p, hp, by rw [hv]; simp⟩
  obtain ⟨A, d1, e1, s1, g1, p1⟩ := overV_spec (top := b) hl1 hv1 hr1 hd1
  obtain ⟨B, d2, e2, s2, g2, p2⟩ := overV_spec (top := b) hl2 hv hr2 hd2
  obtain ⟨_, ⟨q, hq, hqb⟩, hall⟩ := (range_iff ..).1 hr
  refine ⟨A, B, b, ?_, ⟨q.2, by rw [← hqb]; exact hq⟩, fun p hp => (hall p hp).2, ⟨?_, d1, s1, p1⟩, ⟨?_, d2, s2, p2⟩⟩
  · unfold dqdv
    rw [hm]
    simp only
    rw [hr]
    simp only
    rw [e1]
    simp only
    rw [e2]
  · rw [g1]; exact even_linspace _ _
  · rw [g2]; exact even_linspace _ _

/-- `dQdV` is refused exactly if the emulated profile has no voltage at the measured capacities. -/
theorem C136_refused (pe ne1 pos neg real : Curve) (lli qpe qne x2 : Rat) (m : Matched) (hreal : Distinct real)
    (hw : ∃ p ∈ real, ∃ q ∈ real, p.2 ≠ none ∧ q.2 ≠ none ∧ p.1 ≠ q.1)
    (hm : matchAh pe ne1 pos neg lli qpe qne x2 real = .ok m) :
    (∃ A B, dqdv pe ne1 pos neg lli qpe qne x2 real = .ok (A, B)) ↔ ∃ p ∈ m.emulated, p.2 ≠ none := by
  obtain ⟨a, b, hab, h1, h2, hr⟩ := match_grid hreal hw hm
  have hl1 : m.real.length = 1001 := by have := congrArg List.length h1; rwa [List.length_map, length_linspace] at this
  have hl2 : m.emulated.length = 1001 := by have := congrArg List.length h2; rwa [List.length_map, length_linspace] at this
  have hv1 : ∃ p ∈ m.real, p.2 ≠ none := by
    obtain ⟨hres, _⟩ := matchAh_real hm
    obtain ⟨lo, hi, hb⟩ := bounded real
    have hne : m.real ≠ [] := by intro h; rw [h] at hl1; cases hl1
    obtain ⟨p, hp⟩ := List.exists_mem_of_ne_nil _ hne
    obtain ⟨v, hv, _⟩ := resampled_full hreal hres hb p hp
    exact ⟨p, hp, by rw [hv]; simp⟩
  have key : ∀ c : Curve, c.length = 1001 → ((∃ A, overV b c = .ok A) ↔ ∃ p ∈ c, p.2 ≠ none) := by
    intro c hl
    obtain ⟨g, hg⟩ := gradient_ok (rows := c.map (fun p => (p.2, some p.1))) (by rw [List.length_map]; omega)
    have hgl : (ewm g).length = c.length := by
      rw [ewm_length, gradient_length hg, List.length_map]
    have hdq : dqdvOf c = .ok ((ewm g).zip c) := by unfold dqdvOf; rw [hg]
    have hq : qPoints ((ewm g).zip c) = capacityByVoltage c := filterMap_zip_q (ewm g) c hgl
    unfold overV
    rw [hdq]
    simp only
    rw [hq]
    constructor
    · rintro ⟨A, h⟩
      by_cases he : (capacityByVoltage c).isEmpty
      · rw [if_pos he] at h; cases h
      · rw [List.isEmpty_iff] at he
        obtain ⟨r, hr⟩ := List.exists_mem_of_ne_nil _ he
        obtain ⟨p, hp, hpr⟩ := List.mem_filterMap.1 hr
        refine ⟨p, hp, ?_⟩
        intro h
        rw [h] at hpr
        cases hpr
    · rintro ⟨⟨q, v⟩, hp, hpv⟩
      cases v with
      | none => exact absurd rfl hpv
      | some v =>
        have : capacityByVoltage c ≠ [] := List.ne_nil_of_mem (List.mem_filterMap.2 ⟨_, hp, rfl⟩)
        rw [if_neg (by rw [List.isEmpty_iff]; exact this)]
        exact ⟨_, rfl⟩
  obtain ⟨A, hA⟩ := (key m.real hl1).2 hv1
  rw [← key m.emulated hl2]
  unfold dqdv
  rw [hm]
  simp only
  rw [hr]
  simp only
  rw [hA]
  simp only
  cases overV b m.emulated with
  | error e =>
    constructor
    · rintro ⟨_, _, h⟩; cases h
    · rintro ⟨_, h⟩; cases h
  | ok B => exact ⟨fun _ => ⟨B, rfl⟩, fun _ => ⟨A, B, rfl⟩⟩

/-- the measured profile of the sample rises -/
example : ∃ m A B, matchAh samplePe sampleNe [] [] 0 100 100 1 samplePe = .ok m ∧
    dvdq samplePe sampleNe [] [] 0 100 100 1 samplePe = .ok (A, B) ∧ RisingVoltage m.real ∧ ∀ r ∈ A, ∃ t, r.2 = some t ∧ 0 < t := by
  obtain ⟨m, hm, _, _, _, hl, hr⟩ := sample_emulated
  obtain ⟨A, B, hd, h1, _⟩ := C135_rising _ _ _ _ _ _ _ _ _ m samplePe_distinct samplePe_wide hm
  have hrise : RisingVoltage m.real := by
    constructor
    · intro p hp
      obtain ⟨j, hj⟩ := List.getElem?_of_mem hp
      have hlt : j < 1001 := by rw [← hl]; exact (List.getElem?_eq_some_iff.1 hj).1
      rw [hr j hlt] at hj
      cases hj
      simp
    · intro i x0 v0 x1 v1 h0 h1
      have hlt : i + 1 < 1001 := by rw [← hl]; exact (List.getElem?_eq_some_iff.1 h1).1
      rw [hr i (by omega)] at h0
      rw [hr (i + 1) hlt] at h1
      cases h0
      cases h1
      push_cast
      linarith
  exact ⟨m, A, B, hm, hd, hrise, h1 hrise⟩

/-- rows with voltages that rise by the same step -/
theorem steps_rising {c : Curve} {n : Nat} {v0 : Rat} (hsome : ∀ j : Nat, j ≤ n → c[j]? = some ((j : Rat) / 10, some (v0 + (j : Rat) / 400)))
    (hnone : ∀ j : Nat, n < j → j < c.length → c[j]? = some ((j : Rat) / 10, none)) :
    Rising (c.map (fun p => (p.2, some p.1))) ∧ Distinct (capacityByVoltage c) := by
  have row : ∀ (j : Nat) x v, c[j]? = some (x, some v) → v = v0 + (j : Rat) / 400 := by
    intro j x v h
    rcases Nat.lt_or_ge n j with hj | hj
    · rw [hnone j hj (List.getElem?_eq_some_iff.1 h).1] at h; cases h
    · rw [hsome j hj] at h; cases h; rfl
  constructor
  · intro i x0 y0 x1 y1 h0 h1
    rw [List.getElem?_map] at h0 h1
    cases hc : c[i]? with
    | none => rw [hc] at h0; cases h0
    | some p =>
      cases hc1 : c[i + 1]? with
      | none => rw [hc1] at h1; cases h1
      | some q =>
        rw [hc] at h0
        rw [hc1] at h1
        obtain ⟨p1, p2⟩ := p
        obtain ⟨q1, q2⟩ := q
        simp only [Option.map_some, Option.some.injEq, Prod.mk.injEq] at h0 h1
        obtain ⟨rfl, _⟩ := h0
        obtain ⟨rfl, _⟩ := h1
        rw [row i p1 x0 hc, row (i + 1) q1 x1 hc1]
        push_cast
        linarith
  · unfold Distinct capacityByVoltage
    have : c.Pairwise (fun p q => p.2 ≠ none → p.2 ≠ q.2) := by
      rw [List.pairwise_iff_getElem]
      intro i j hi hj hij hp he
      have h1 : c[i]? = some c[i] := List.getElem?_eq_getElem hi
      have h2 : c[j]? = some c[j] := List.getElem?_eq_getElem hj
      generalize c[i] = p at *
      generalize c[j] = q at *
      obtain ⟨p1, p2⟩ := p
      obtain ⟨q1, q2⟩ := q
      cases p2 with
      | none => exact hp rfl
      | some v =>
        simp only at he
        subst he
        have e1 := row i p1 v h1
        have e2 := row j q1 v h2
        rw [e1] at e2
        have : (i : Rat) = j := by linarith
        have : i = j := by exact_mod_cast this
        omega
    unfold List.Nodup
    rw [List.map_filterMap, List.pairwise_filterMap]
    refine this.imp ?_
    intro p q h a ha b hb
    obtain ⟨p1, p2⟩ := p
    obtain ⟨q1, q2⟩ := q
    cases p2 with
    | none => cases ha
    | some v =>
      cases q2 with
      | none => cases hb
      | some w =>
        cases ha
        cases hb
        intro e
        exact h (by simp) (by simp only at e ⊢; rw [e])

/-- the sample meets the hypotheses -/
example : ∃ m A B top, matchAh samplePe sampleNe [] [] 0 100 100 1 samplePe = .ok m ∧
    dqdv samplePe sampleNe [] [] 0 100 100 1 samplePe = .ok (A, B) ∧ OverVoltage top m.real A ∧ OverVoltage top m.emulated B := by
  obtain ⟨m, hm, hl, h1, h2, hl', h3⟩ := sample_emulated
  obtain ⟨r1, d1⟩ := steps_rising (n := 1000) (fun j hj => h3 j (by omega)) (fun j hj hlt => by omega)
  obtain ⟨r2, d2⟩ := steps_rising h1 (fun j hj hlt => h2 j hj (by omega))
  obtain ⟨A, B, top, h, _, _, o1, o2⟩ := C136_dqdv _ _ _ _ _ _ _ _ _ m samplePe_distinct samplePe_wide hm
    ⟨_, List.mem_of_getElem? (h1 0 (by norm_num)), by simp⟩ r1 d1 r2 d2
  exact ⟨m, A, B, top, hm, h, o1, o2⟩

end Beep.Props.IntracellSlopes
