import Verif.Props.IntracellV1
import Verif.Props.IntracellSlopes
/-
C142: the derivatives of the initial match of version 1 of the intracell analysis.
-/
namespace Beep.Props.IntracellV1
open Beep Pandas Beep.Intracell Beep.IntracellFit Beep.IntracellV1 Beep.Spec.Intracell Beep.Spec.IntracellV1
open Beep.Props.Intracell Beep.Props.IntracellFit Beep.Spec.IntracellSlopes Beep.Props.IntracellSlopes
open Beep.Interp (linspace length_linspace getElem?_linspace)

theorem gradient_total {rows : List (Option Rat × Option Rat)} (h : 2 ≤ rows.length) : ∃ g, gradient rows = .ok g := by
  match rows, h with
  | p :: q :: rest, _ => exact ⟨_, rfl⟩

theorem even_rising {c : Curve} {a b : Rat} (he : Even (c.map Prod.fst) a b) (hab : a < b) :
    Rising (c.map (fun p => (some p.1, p.2))) := by
  intro i x0 y0 x1 y1 h0 h1
  rw [List.getElem?_map, Option.map_eq_some_iff] at h0 h1
  obtain ⟨p, hp, e0⟩ := h0
  obtain ⟨q, hq, e1⟩ := h1
  simp only [Prod.mk.injEq, Option.some.injEq] at e0 e1
  have l1 := (List.getElem?_eq_some_iff.1 hq).1
  have hl : c.length = 1001 := by have := he.1; rwa [List.length_map] at this
  have g0 := he.2 i (by omega)
  have g1 := he.2 (i + 1) (by omega)
  rw [List.getElem?_map, hp] at g0
  rw [List.getElem?_map, hq] at g1
  simp only [Option.map_some, Option.some.injEq] at g0 g1
  rw [← e0.1, ← e1.1, g0, g1]
  push_cast
  nlinarith

theorem dvdq_spec {c : Curve} (hl : 2 ≤ c.length) (hr : Rising (c.map (fun p => (some p.1, p.2)))) :
    ∃ d, dvdqOverQ c = .ok d ∧ VoltageSlopes c d := by
  obtain ⟨g, hg⟩ := gradient_total (rows := c.map (fun p => (some p.1, p.2))) (by rw [List.length_map]; exact hl)
  obtain ⟨h1, h2⟩ := gradient_spec hg hr
  rw [List.length_map] at h1
  refine ⟨(c.map Prod.fst).zip g, by unfold dvdqOverQ; rw [hg], List.map_fst_zip (by rw [List.length_map]; omega), ?_⟩
  intro i x s h
  rw [List.getElem?_zip_eq_some] at h
  obtain ⟨s', e, hs⟩ := h2 i (by rw [List.length_map, ← h1]; exact (List.getElem?_eq_some_iff.1 h.2).1)
  have e' : s = s' := Option.some.inj (h.2.symm.trans e)
  rw [e']
  exact hs

theorem dqdv_spec {c : Curve} (hl : 2 ≤ c.length) (hr : Rising (c.map (fun p => (p.2, some p.1)))) :
    ∃ d, dqdvOverQ c = .ok d ∧ ChargeSlopes c d := by
  obtain ⟨g, hg⟩ := gradient_total (rows := c.map (fun p => (p.2, some p.1))) (by rw [List.length_map]; exact hl)
  obtain ⟨h1, h2⟩ := gradient_spec hg hr
  rw [List.length_map] at h1
  refine ⟨(c.map Prod.fst).zip g, by unfold dqdvOverQ; rw [hg], List.map_fst_zip (by rw [List.length_map]; omega), ?_⟩
  intro i x s h
  rw [List.getElem?_zip_eq_some] at h
  obtain ⟨s', e, hs⟩ := h2 i (by rw [List.length_map, ← h1]; exact (List.getElem?_eq_some_iff.1 h.2).1)
  have e' : s = s' := Option.some.inj (h.2.symm.trans e)
  rw [e']
  exact hs

theorem initial_grid {spline : Curve → Rat → Option Rat} {pe ne1 pos neg real : Curve} {ratio offset x2 : Rat}
    {m : Matched} (h : initialMatch spline pe ne1 pos neg ratio offset x2 real = .ok m) :
    Even (m.real.map Prod.fst) 0 100 ∧ Even (m.emulated.map Prod.fst) 0 100 := by
  cases ha : anode ne1 pos neg x2 with
  | error e => unfold initialMatch at h; rw [ha] at h; cases h
  | ok ne =>
    obtain ⟨p, n, k, z, lo, top, _, _, _, _, _, _, _, hm⟩ := initial_parts ha h
    rw [hm]
    simp only
    rw [List.map_map, List.map_map]
    have : ∀ f : Rat → Option Rat, (Prod.fst ∘ fun x => (x, f x)) = (id : Rat → Rat) := fun _ => rfl
    rw [this, this, List.map_id]
    exact ⟨even_linspace 0 100, even_linspace 0 100⟩

theorem even_len {c : Curve} {a b : Rat} (he : Even (c.map Prod.fst) a b) : 2 ≤ c.length := by
  have := he.1
  rw [List.length_map] at this
  omega

/-- `dVdQ` over Q is, at every row of both profiles of the initial match, the slope of the voltage over the state of
charge. -/
theorem C142_dvdq (spline : Curve → Rat → Option Rat) (pe ne1 pos neg real : Curve) (ratio offset x2 : Rat) (m : Matched)
    (h : initialMatch spline pe ne1 pos neg ratio offset x2 real = .ok m) :
    ∃ A B, initialSlopes dvdqOverQ spline pe ne1 pos neg ratio offset x2 real = .ok (A, B) ∧
      VoltageSlopes m.real A ∧ VoltageSlopes m.emulated B := by
  obtain ⟨h1, h2⟩ := initial_grid h
  obtain ⟨A, e1, s1⟩ := dvdq_spec (even_len h1) (even_rising h1 (by norm_num))
  obtain ⟨B, e2, s2⟩ := dvdq_spec (even_len h2) (even_rising h2 (by norm_num))
  refine ⟨A, B, ?_, s1, s2⟩
  unfold initialSlopes
  rw [h]
  simp only
  rw [e1, e2]

theorem rising_voltage {c : Curve} (h : RisingVoltage c) : Rising (c.map (fun p => (p.2, some p.1))) := by
  intro i x0 y0 x1 y1 h0 h1
  rw [List.getElem?_map, Option.map_eq_some_iff] at h0 h1
  obtain ⟨p, hp, e0⟩ := h0
  obtain ⟨q, hq, e1⟩ := h1
  simp only [Prod.mk.injEq] at e0 e1
  refine h.2 i p.1 x0 q.1 x1 ?_ ?_
  · rw [hp, ← e0.1]
  · rw [hq, ← e1.1]

/-- `dQdV` over Q is, at every row of both profiles of the initial match, the slope of the state of charge over the
voltage, if the voltages rise. -/
theorem C142_dqdv (spline : Curve → Rat → Option Rat) (pe ne1 pos neg real : Curve) (ratio offset x2 : Rat) (m : Matched)
    (h : initialMatch spline pe ne1 pos neg ratio offset x2 real = .ok m) (hr : RisingVoltage m.real)
    (he : RisingVoltage m.emulated) :
    ∃ A B, initialSlopes dqdvOverQ spline pe ne1 pos neg ratio offset x2 real = .ok (A, B) ∧
      ChargeSlopes m.real A ∧ ChargeSlopes m.emulated B := by
  obtain ⟨h1, h2⟩ := initial_grid h
  obtain ⟨A, e1, s1⟩ := dqdv_spec (even_len h1) (rising_voltage hr)
  obtain ⟨B, e2, s2⟩ := dqdv_spec (even_len h2) (rising_voltage he)
  refine ⟨A, B, ?_, s1, s2⟩
  unfold initialSlopes
  rw [h]
  simp only
  rw [e1, e2]

/-- the slope of rows on a straight line -/
theorem slopeAt_line {rows : List (Option Rat × Option Rat)} {g u : Rat} (hx : Rising rows)
    (hl : ∀ p ∈ rows, ∃ x, p = (some x, some (u + g * x))) {i : Nat} {s : Option Rat} (h : SlopeAt rows i s) : s = some g := by
  have row : ∀ (j : Nat) p, rows[j]? = some p → ∃ x, p = (some x, some (u + g * x)) :=
    fun j p hp => hl p (List.mem_of_getElem? hp)
  have no : ∀ x y : Rat, ¬ Missing (some x, some y) := by
    intro x y h
    rcases h with h | h <;> cases h
  have line : ∀ (j : Nat) p q, rows[j]? = some p → rows[j + 1]? = some q → LineSlope p q s → s = some g := by
    intro j p q hp hq hs
    obtain ⟨x, rfl⟩ := row j p hp
    obtain ⟨y, rfl⟩ := row _ q hq
    have hxy := hx j _ _ _ _ hp hq
    rcases hs with ⟨_, hm | hm⟩ | ⟨x0, y0, x1, y1, t, e0, e1, rfl, e⟩
    · exact absurd hm (no _ _)
    · exact absurd hm (no _ _)
    · simp only [Prod.mk.injEq, Option.some.injEq] at e0 e1
      rw [← e0.1, ← e0.2, ← e1.1, ← e1.2] at e
      congr 1
      have hne : y - x ≠ 0 := ne_of_gt (by linarith)
      apply mul_right_cancel₀ hne
      rw [e]
      ring
  rcases h with ⟨rfl, p, q, hp, hq, hs⟩ | ⟨hi, _, p, q, hp, hq, hs⟩ | ⟨hi, p, q, r, hp, hq, hr, hs⟩
  · exact line 0 p q hp hq hs
  · exact line (i - 1) p q hp (by rw [Nat.sub_add_cancel hi]; exact hq) hs
  · obtain ⟨x, rfl⟩ := row _ p hp
    obtain ⟨y, rfl⟩ := row _ q hq
    obtain ⟨z, rfl⟩ := row _ r hr
    have h1 := hx (i - 1) _ _ _ _ hp (by rw [Nat.sub_add_cancel hi]; exact hq)
    have h2 := hx i _ _ _ _ hq hr
    rcases hs with ⟨_, hm | hm | hm⟩ | ⟨x0, y0, x1, y1, x2, y2, a, b, c, e0, e1, e2, f0, f1, f2, rfl⟩
    · exact absurd hm (no _ _)
    · exact absurd hm (no _ _)
    · exact absurd hm (no _ _)
    · simp only [Prod.mk.injEq, Option.some.injEq] at e0 e1 e2
      rw [← e0.1, ← e0.2] at f0
      rw [← e1.1, ← e1.2] at f1
      rw [← e2.1, ← e2.2] at f2
      rw [← e1.1]
      have k1 : (y - x) * (a * (x + y) + b - g) = 0 := by linarith
      have k2 : (z - y) * (a * (y + z) + b - g) = 0 := by linarith
      have k1' := (mul_eq_zero.1 k1).resolve_left (ne_of_gt (by linarith))
      have k2' := (mul_eq_zero.1 k2).resolve_left (ne_of_gt (by linarith))
      have k3 : (z - x) * a = 0 := by linarith
      have ha := (mul_eq_zero.1 k3).resolve_left (ne_of_gt (by linarith))
      subst ha
      congr 1
      linarith

/-- On a straight profile `dVdQ` over Q is its slope everywhere. -/
theorem C142_straight (c : Curve) (a b g : Rat) (he : Even (c.map Prod.fst) a b) (hab : a < b) (hs : Straight c g) :
    ∃ d, dvdqOverQ c = .ok d ∧ d.map Prod.fst = c.map Prod.fst ∧ ∀ p ∈ d, p.2 = some g := by
  obtain ⟨d, hd, h1, h2⟩ := dvdq_spec (even_len he) (even_rising he hab)
  refine ⟨d, hd, h1, ?_⟩
  intro p hp
  obtain ⟨i, hi⟩ := List.getElem?_of_mem hp
  obtain ⟨u, hu⟩ := hs
  refine slopeAt_line (u := u) (even_rising he hab) ?_ (h2 i p.1 p.2 hi)
  intro q hq
  obtain ⟨r, hr, rfl⟩ := List.mem_map.1 hq
  exact ⟨r.1, by rw [hu r hr]⟩

/-- On a straight profile of a positive slope the `dVdQ` over V is the inverse of the slope of the voltage, at every one of
the 1001 voltages that the profile has: it is `dQdV`. -/
theorem C142_over_v_violated (c : Curve) (a b g : Rat) (he : Even (c.map Prod.fst) a b) (hab : a < b) (hg : 0 < g)
    (hs : Straight c g) :
    ∃ d, dvdqOverV c = .ok d ∧ Even (d.map Prod.fst) (27 / 10) (42 / 10) ∧
      ∀ v s, (v, s) ∈ d → (∃ p ∈ c, ∃ w, p.2 = some w ∧ w ≤ v) → (∃ p ∈ c, ∃ w, p.2 = some w ∧ v ≤ w) → s = some (1 / g) := by
  obtain ⟨u, hu⟩ := hs
  have hlen : c.length = 1001 := by have := he.1; rwa [List.length_map] at this
  have hris : Rising (c.map (fun p => (p.2, some p.1))) := by
    intro i x0 y0 x1 y1 h0 h1
    have hx := even_rising he hab
    rw [List.getElem?_map, Option.map_eq_some_iff] at h0 h1
    obtain ⟨p, hp, e0⟩ := h0
    obtain ⟨q, hq, e1⟩ := h1
    have hpq := hx i p.1 p.2 q.1 q.2 (by rw [List.getElem?_map, hp]; rfl) (by rw [List.getElem?_map, hq]; rfl)
    rw [hu p (List.mem_of_getElem? hp)] at e0
    rw [hu q (List.mem_of_getElem? hq)] at e1
    simp only [Prod.mk.injEq, Option.some.injEq] at e0 e1
    rw [← e0.1, ← e1.1]
    nlinarith
  obtain ⟨gr, hgr⟩ := gradient_total (rows := c.map (fun p => (p.2, some p.1))) (by rw [List.length_map]; omega)
  obtain ⟨hgl, hgs⟩ := gradient_spec hgr hris
  rw [List.length_map] at hgl
  have hslope : ∀ s ∈ gr, s = some (1 / g) := by
    intro s hs
    obtain ⟨i, hi⟩ := List.getElem?_of_mem hs
    have hlt := (List.getElem?_eq_some_iff.1 hi).1
    obtain ⟨s', e, h2⟩ := hgs i (by rw [List.length_map]; omega)
    rw [hi] at e
    rw [Option.some.inj e]
    refine slopeAt_line (u := - u / g) hris ?_ h2
    intro q hq
    obtain ⟨r, hr, rfl⟩ := List.mem_map.1 hq
    refine ⟨u + g * r.1, ?_⟩
    rw [hu r hr]
    simp only [Prod.mk.injEq, Option.some.injEq, true_and]
    field_simp
    ring
  -- the interpolated points
  have hpts : dqdvPoints (gr.zip c) = c.map (fun p => (u + g * p.1, some (1 / g))) := by
    apply List.ext_getElem?
    intro k
    have hform : dqdvPoints (gr.zip c) = (gr.zip c).map (fun r => (u + g * r.2.1, some (1 / g))) := by
      unfold dqdvPoints
      rw [← List.filterMap_eq_map]
      apply List.filterMap_congr
      intro r hr
      have h1 := List.of_mem_zip hr
      rw [hu r.2 h1.2, hslope r.1 h1.1]
      rfl
    rw [hform]
    have : (gr.zip c).map (fun r => (u + g * r.2.1, some (1 / g))) =
        ((gr.zip c).map Prod.snd).map (fun p => (u + g * p.1, some (1 / g))) := by rw [List.map_map]; rfl
    rw [this, List.map_snd_zip (by omega)]
  have hdist : Distinct (c.map (fun p => (u + g * p.1, some (1 / g)))) := by
    have hd : Distinct c := even_distinct he hab
    unfold Distinct at hd ⊢
    rw [List.map_map]
    have : (Prod.fst ∘ fun p : Rat × Option Rat => (u + g * p.1, some (1 / g))) = (fun x => u + g * x) ∘ Prod.fst := rfl
    rw [this, ← List.map_map]
    refine hd.map ?_
    intro x y he
    exact mul_left_cancel₀ (ne_of_gt hg) (by simp only at he; linarith)
  have hne : c ≠ [] := by intro h; rw [h] at hlen; cases hlen
  refine ⟨(linspace lowerV upperV 1001).map (fun v => (v, interpFill 0 0 (dqdvPoints (gr.zip c)) v)), ?_, ?_, ?_⟩
  · unfold dvdqOverV
    rw [hgr]
    simp only
    rw [if_neg]
    rw [hpts]
    simpa using hne
  · rw [List.map_map]
    have : ∀ f : Rat → Option Rat, (Prod.fst ∘ fun x => (x, f x)) = (id : Rat → Rat) := fun _ => rfl
    rw [this, List.map_id]
    exact even_linspace _ _
  · rintro v s hm ⟨p, hp, w, hw, hwv⟩ ⟨q, hq, w', hw', hvw⟩
    obtain ⟨v', _, e⟩ := List.mem_map.1 hm
    obtain ⟨rfl, rfl⟩ := Prod.mk.inj e
    rw [hpts]
    rw [hu p hp] at hw
    rw [hu q hq] at hw'
    obtain rfl := Option.some.inj hw
    obtain rfl := Option.some.inj hw'
    have hmp := List.mem_map_of_mem (f := fun p : Rat × Option Rat => (u + g * p.1, some (1 / g))) hp
    have hmq := List.mem_map_of_mem (f := fun p : Rat × Option Rat => (u + g * p.1, some (1 / g))) hq
    have hcn : c.map (fun p => (u + g * p.1, some (1 / g))) ≠ [] := List.ne_nil_of_mem hmp
    have hin : interpFill 0 0 (c.map (fun p => (u + g * p.1, some (1 / g)))) v' =
        interp (c.map (fun p => (u + g * p.1, some (1 / g)))) v' := by
      cases hr : range (c.map (fun p => (u + g * p.1, some (1 / g)))) with
      | none => rw [range_none] at hr; exact absurd hr hcn
      | some r =>
        obtain ⟨lo, hi⟩ := r
        obtain ⟨_, _, h3⟩ := (range_iff ..).1 hr
        have k1 := (h3 _ hmp).1
        have k2 := (h3 _ hmq).2
        simp only at k1 k2
        unfold range at hr
        unfold interpFill
        revert hr
        cases minN (List.map (fun p => some p.1) (c.map (fun p => (u + g * p.1, some (1 / g))))) <;>
          cases maxN (List.map (fun p => some p.1) (c.map (fun p => (u + g * p.1, some (1 / g))))) <;> intro hr <;>
          simp only [reduceCtorEq, Option.some.injEq, Prod.mk.injEq] at hr
        obtain ⟨rfl, rfl⟩ := hr
        simp only
        rw [if_neg (by linarith), if_neg (by linarith)]
    rw [hin]
    have hon := interp_onCurve _ hdist v'
    rcases hon with h | ⟨p', hp', q', hq', g1, g2, _, hb⟩ | ⟨hout, _⟩
    · obtain ⟨r, _, e⟩ := List.mem_map.1 h
      exact (Prod.mk.inj e).2.symm
    · obtain ⟨r, _, rfl⟩ := List.mem_map.1 hp'
      obtain ⟨r', _, rfl⟩ := List.mem_map.1 hq'
      rcases hb with ⟨s, t, hs, ht, e⟩ | ⟨hn, _⟩
      · simp only [Option.some.injEq] at hs ht
        rw [e, ← hs, ← ht]
        congr 1
        ring
      · simp at hn
    · exfalso
      rcases hout with h | h
      · have := h _ hmp
        simp only at this
        linarith
      · have := h _ hmq
        simp only at this
        linarith

/-- A profile from 2 V to 4.5 V, 0.025 V per percent: `dVdQ` over V reports 40. -/
example : Even (samplePe.map Prod.fst) 0 100 ∧ Straight samplePe (1 / 40) := by
  have hl : samplePe.length = 1001 := by unfold samplePe; rw [List.length_map, List.length_range]
  refine ⟨⟨by rw [List.length_map, hl], ?_⟩, 2, ?_⟩
  · intro k hk
    rw [List.getElem?_map, samplePe_get k hk]
    simp only [Option.map_some, Option.some.injEq]
    ring
  · intro p hp
    obtain ⟨k, hk⟩ := List.getElem?_of_mem hp
    have hlt := (List.getElem?_eq_some_iff.1 hk).1
    rw [samplePe_get k (by omega)] at hk
    rw [← Option.some.inj hk]
    simp only [Option.some.injEq]
    ring

example (spline : Curve → Rat → Option Rat) : ∃ m, initialMatch spline samplePe sampleNe [] [] 1 0 1 samplePe = .ok m :=
  sample_initial spline

end Beep.Props.IntracellV1
