import Verif.Proof.IntracellV1Smooth
/-
C150: the smoothed derivatives of version 1 of the intracell analysis.  C151: the errors of fits of derivatives.
-/
namespace Beep.Props.IntracellV1
open Beep Pandas Beep.Intracell Beep.IntracellFit Beep.IntracellV1 Beep.Spec.Intracell
open Beep.Props.Intracell Beep.Props.IntracellFit Beep.Spec.IntracellSlopes Beep.Props.IntracellSlopes
open Beep.Spec.IntracellV1Smooth
open Beep.Interp (linspace length_linspace getElem?_linspace)

/-- For the six parameters of a degraded cell, `dVdQ` is, at every state of charge of the match, the slope of the voltage over
the state of charge, smoothed with the fifth parameter for the measured and with the sixth for the emulated profile. -/
theorem C150_dvdq (pe ne1 pos neg real : Curve) (lli lamPe lamNe x2 a b : Rat) (m : Matched) (hreal : Distinct real)
    (hw : ∃ p ∈ real, ∃ q ∈ real, p.2 ≠ none ∧ q.2 ≠ none ∧ p.1 ≠ q.1) (ha : Weight a) (hb : Weight b)
    (h : matchV3 pe ne1 pos neg lli lamPe lamNe x2 real = .ok m) :
    ∃ A B, slopesOf dvdqBy [lli, lamPe, lamNe, x2, a, b] (degraded pe ne1 pos neg [lli, lamPe, lamNe, x2, a, b] real) = .ok (A, B) ∧
      VoltageSlopesBy a m.real A ∧ VoltageSlopesBy b m.emulated B := by
  obtain ⟨lo, hi, hlh, g1, g2, _, l1, l2⟩ := matchV3_grid hreal hw h
  obtain ⟨A, e1, s1⟩ := dvdqBy_spec ha (by omega) (grid_rising hlh g1)
  obtain ⟨B, e2, s2⟩ := dvdqBy_spec hb (by omega) (grid_rising hlh g2)
  refine ⟨A, B, ?_, s1, s2⟩
  simp only [slopesOf, degraded, h, withWeights, List.reverse_cons, List.reverse_nil, List.nil_append, List.cons_append, e1, e2]

/-- `dQdV` is, at the 1001 voltages from 2.7 V to 4.2 V, the smoothed slope of the state of charge over the voltage, if the
voltages rise. -/
theorem C150_dqdv (pe ne1 pos neg real : Curve) (lli lamPe lamNe x2 a b : Rat) (m : Matched) (hreal : Distinct real)
    (hw : ∃ p ∈ real, ∃ q ∈ real, p.2 ≠ none ∧ q.2 ≠ none ∧ p.1 ≠ q.1) (ha : Weight a) (hb : Weight b)
    (h : matchV3 pe ne1 pos neg lli lamPe lamNe x2 real = .ok m) (hv : ∃ p ∈ m.emulated, p.2 ≠ none)
    (hr1 : Rising (m.real.map (fun p => (p.2, some p.1)))) (hd1 : Distinct (capacityByVoltage m.real))
    (hr2 : Rising (m.emulated.map (fun p => (p.2, some p.1)))) (hd2 : Distinct (capacityByVoltage m.emulated)) :
    ∃ A B, slopesOf dqdvBy [lli, lamPe, lamNe, x2, a, b] (degraded pe ne1 pos neg [lli, lamPe, lamNe, x2, a, b] real) = .ok (A, B) ∧
      ByVoltage a m.real (A.map tuple) ∧ ByVoltage b m.emulated (B.map tuple) := by
  obtain ⟨lo, hi, hlh, g1, g2, hv1, l1, l2⟩ := matchV3_grid hreal hw h
  obtain ⟨A, e1, s1⟩ := dqdvBy_spec ha (by omega) hv1 hr1 hd1
  obtain ⟨B, e2, s2⟩ := dqdvBy_spec hb (by omega) hv hr2 hd2
  refine ⟨A, B, ?_, s1, s2⟩
  simp only [slopesOf, degraded, h, withWeights, List.reverse_cons, List.reverse_nil, List.nil_append, List.cons_append, e1, e2]

/-- The derivatives are refused exactly for weights outside of (0, 1] and, for `dQdV`, if the emulated profile has no
voltage. -/
theorem C150_refused (pe ne1 pos neg real : Curve) (lli lamPe lamNe x2 a b : Rat) (m : Matched) (hreal : Distinct real)
    (hw : ∃ p ∈ real, ∃ q ∈ real, p.2 ≠ none ∧ q.2 ≠ none ∧ p.1 ≠ q.1)
    (h : matchV3 pe ne1 pos neg lli lamPe lamNe x2 real = .ok m) :
    ((∃ A B, slopesOf dvdqBy [lli, lamPe, lamNe, x2, a, b] (degraded pe ne1 pos neg [lli, lamPe, lamNe, x2, a, b] real) = .ok (A, B)) ↔
      Weight a ∧ Weight b) ∧
    ((∃ A B, slopesOf dqdvBy [lli, lamPe, lamNe, x2, a, b] (degraded pe ne1 pos neg [lli, lamPe, lamNe, x2, a, b] real) = .ok (A, B)) ↔
      Weight a ∧ Weight b ∧ ∃ p ∈ m.emulated, p.2 ≠ none) := by
  obtain ⟨lo, hi, hlh, g1, g2, hv1, l1, l2⟩ := matchV3_grid hreal hw h
  simp only [slopesOf, degraded, h, withWeights, List.reverse_cons, List.reverse_nil, List.nil_append, List.cons_append]
  constructor
  · rcases dvdqBy_total a (c := m.real) (by omega) with ⟨wa, d, e1⟩ | ⟨wa, e1⟩
    · rcases dvdqBy_total b (c := m.emulated) (by omega) with ⟨wb, d', e2⟩ | ⟨wb, e2⟩
      · rw [e1, e2]
        exact ⟨fun _ => ⟨wa, wb⟩, fun _ => ⟨d, d', rfl⟩⟩
      · rw [e1, e2]
        exact ⟨fun ⟨_, _, h⟩ => (by cases h), fun h => absurd h.2 wb⟩
    · rw [e1]
      exact ⟨fun ⟨_, _, h⟩ => (by cases h), fun h => absurd h.1 wa⟩
  · rcases dqdvBy_total a (c := m.real) (by omega) with ⟨wa, d, e1⟩ | ⟨wa, e1⟩
    · rcases dqdvBy_total b (c := m.emulated) (by omega) with ⟨wb, d', e2⟩ | ⟨wb, e2⟩
      · rw [e1, e2]
        exact ⟨fun _ => ⟨wa.1, wb⟩, fun _ => ⟨d, d', rfl⟩⟩
      · rw [e1, e2]
        exact ⟨fun ⟨_, _, h⟩ => (by cases h), fun h => absurd h.2 wb⟩
    · rw [e1]
      exact ⟨fun ⟨_, _, h⟩ => (by cases h), fun h => absurd ⟨h.1, hv1⟩ wa⟩

/-- The same for the initial match, whose five parameters end with the two weights. -/
theorem C150_initial (spline : Curve → Rat → Option Rat) (pe ne1 pos neg real : Curve) (ratio offset x2 a b : Rat) (m : Matched)
    (ha : Weight a) (hb : Weight b) (h : initialMatch spline pe ne1 pos neg ratio offset x2 real = .ok m)
    (hv : ∃ p ∈ m.real, p.2 ≠ none) (hv' : ∃ p ∈ m.emulated, p.2 ≠ none)
    (hr1 : Rising (m.real.map (fun p => (p.2, some p.1)))) (hd1 : Distinct (capacityByVoltage m.real))
    (hr2 : Rising (m.emulated.map (fun p => (p.2, some p.1)))) (hd2 : Distinct (capacityByVoltage m.emulated)) :
    ∃ A B, slopesOf dqdvBy [ratio, offset, x2, a, b] (started spline pe ne1 pos neg [ratio, offset, x2, a, b] real) = .ok (A, B) ∧
      ByVoltage a m.real (A.map tuple) ∧ ByVoltage b m.emulated (B.map tuple) := by
  obtain ⟨h1, h2⟩ := initial_grid h
  obtain ⟨A, e1, s1⟩ := dqdvBy_spec ha (even_len h1) hv hr1 hd1
  obtain ⟨B, e2, s2⟩ := dqdvBy_spec hb (even_len h2) hv' hr2 hd2
  refine ⟨A, B, ?_, s1, s2⟩
  simp only [slopesOf, started, h, withWeights, List.reverse_cons, List.reverse_nil, List.nil_append, List.cons_append, e1, e2]

/-- With the two or three parameters that the initial match documents (ratio, offset and fraction of the second material), the
last two of them are taken for the weights: whatever the cell, `dQdV` is refused for an offset that is not above 0 and at most
1.  Two parameters do not suffice when there is a second material. -/
theorem C150_documented_violated (spline : Curve → Rat → Option Rat) (pe ne1 pos neg real : Curve) (ratio offset x2 : Rat)
    (hw : ¬ Weight offset) :
    (∀ m, initialMatch spline pe ne1 pos neg ratio offset x2 real = .ok m →
      slopesOf dqdvBy [ratio, offset, x2] (started spline pe ne1 pos neg [ratio, offset, x2] real) = .error .valueError) ∧
    (∀ m, pos = [] ∨ neg = [] → initialMatch spline pe ne1 pos neg ratio offset 0 real = .ok m →
      slopesOf dqdvBy [ratio, offset] (started spline pe ne1 pos neg [ratio, offset] real) = .error .valueError) ∧
    (pos ≠ [] → neg ≠ [] →
      slopesOf dqdvBy [ratio, offset] (started spline pe ne1 pos neg [ratio, offset] real) = .error .indexError) := by
  refine ⟨?_, ?_, ?_⟩
  · intro m h
    obtain ⟨h1, h2⟩ := initial_grid h
    simp only [slopesOf, started, h, withWeights, List.reverse_cons, List.reverse_nil, List.nil_append, List.cons_append]
    rcases dqdvBy_total offset (c := m.real) (even_len h1) with ⟨wa, _⟩ | ⟨_, e1⟩
    · exact absurd wa.1 hw
    · rw [e1]
  · intro m he h
    obtain ⟨h1, h2⟩ := initial_grid h
    have he' : (pos.isEmpty || neg.isEmpty) = true := by
      rcases he with rfl | rfl <;> simp
    simp only [slopesOf, started, he', if_true, h, withWeights, List.reverse_cons, List.reverse_nil,
      List.nil_append, List.cons_append]
    rcases dqdvBy_total ratio (c := m.real) (even_len h1) with ⟨_, d, e1⟩ | ⟨_, e1⟩
    · rw [e1]
      simp only
      rcases dqdvBy_total offset (c := m.emulated) (even_len h2) with ⟨wa, _⟩ | ⟨_, e2⟩
      · exact absurd wa.1 hw
      · rw [e2]
    · rw [e1]
  · intro hp hn
    have he' : (pos.isEmpty || neg.isEmpty) = false := by
      cases pos with
      | nil => exact absurd rfl hp
      | cons _ _ => cases neg with
        | nil => exact absurd rfl hn
        | cons _ _ => rfl
    simp only [slopesOf, started, he', Bool.false_eq_true, if_false]

/-- the documented parameters of two equal electrodes without an offset -/
example (spline : Curve → Rat → Option Rat) : ¬ Weight 0 ∧
    slopesOf dqdvBy [1, 0, 1] (started spline samplePe sampleNe [] [] [1, 0, 1] samplePe) = .error .valueError := by
  have hw : ¬ Weight 0 := fun h => absurd h.1 (lt_irrefl _)
  obtain ⟨m, hm⟩ := sample_initial spline
  exact ⟨hw, (C150_documented_violated spline samplePe sampleNe [] [] samplePe 1 0 1 hw).1 m hm⟩

/-! ### C151: errors of derivatives -/

theorem column_full {a b : List (Option Rat)} (ha : none ∉ a) (hb : none ∉ b) : columnError a b =
    .ok (Real.sqrt ((((a.zip b).map (fun r => (r.1.getD 0 - r.2.getD 0) ^ 2)).sum : Rat) : ℝ)) := by
  have hf : b.filter Option.isNone = [] := by
    rw [List.filter_eq_nil_iff]
    intro v hv hn
    exact hb (Option.isNone_iff_eq_none.1 hn ▸ hv)
  unfold columnError euclid
  rw [if_neg (by rintro (h | h); exact ha h; exact hb h), hf]
  simp

theorem column_gap {a b : List (Option Rat)} (h : none ∈ a ∨ none ∈ b) : columnError a b = .error .valueError := by
  unfold columnError euclid
  rw [if_pos h]

theorem squared_unique : ∀ (a b : List Rat) (total : Rat), a.length = b.length → SquaredDistance a b total →
    (((a.map some).zip (b.map some)).map (fun r : Option Rat × Option Rat => (r.1.getD 0 - r.2.getD 0) ^ 2)).sum = total := by
  rintro a b total hl ⟨ds, h1, rfl, h2⟩
  congr 1
  apply List.ext_getElem?
  intro k
  by_cases hk : k < a.length
  · have ea := List.getElem?_eq_getElem hk
    have eb := List.getElem?_eq_getElem (l := b) (i := k) (by omega)
    rw [h2 k _ _ ea eb, List.getElem?_map]
    have : ((a.map some).zip (b.map some))[k]? = some (some a[k], some b[k]) := by
      rw [List.getElem?_zip_eq_some, List.getElem?_map, List.getElem?_map, ea, eb]
      exact ⟨rfl, rfl⟩
    rw [this]
    simp only [Option.map_some, Option.getD_some, Option.some.injEq]
    ring
  · rw [List.getElem?_eq_none (by simp; omega), List.getElem?_eq_none (by omega)]

theorem none_not_mem_some (l : List Rat) : none ∉ l.map some := by
  intro h
  obtain ⟨_, _, e⟩ := List.mem_map.1 h
  cases e

/-- Where both profiles have a `dVdQ` everywhere, the error is the root of the summed squared differences. -/
theorem C151_dvdq (pe ne1 pos neg real : Curve) (x : List Rat) (A B : Curve) (a b : List Rat) (total : Rat)
    (h : slopesOf dvdqBy x (degraded pe ne1 pos neg x real) = .ok (A, B)) (hA : A.map Prod.snd = a.map some)
    (hB : B.map Prod.snd = b.map some) (hl : a.length = b.length) (ht : SquaredDistance a b total) :
    errorDvdq pe ne1 pos neg x real = .ok (Real.sqrt (total : ℝ)) := by
  unfold errorDvdq
  rw [h]
  show caught1000 (columnError (A.map Prod.snd) (B.map Prod.snd)) = _
  rw [hA, hB, column_full (none_not_mem_some a) (none_not_mem_some b), squared_unique a b total hl ht]
  rfl

/-- The same for `dQdV`, for the degraded cell and for the initial match. -/
theorem C151_dqdv (pe ne1 pos neg real : Curve) (x : List Rat) (A B : List OverV) (total : Rat)
    (hl : A.length = B.length) (ht : SquaredDistance (A.map OverV.dqdv) (B.map OverV.dqdv) total) :
    (slopesOf dqdvBy x (degraded pe ne1 pos neg x real) = .ok (A, B) →
      errorDqdv pe ne1 pos neg x real = .ok (Real.sqrt (total : ℝ))) ∧
    ∀ spline, slopesOf dqdvBy x (started spline pe ne1 pos neg x real) = .ok (A, B) →
      initialErrorDqdv spline pe ne1 pos neg x real = .ok (Real.sqrt (total : ℝ)) := by
  have key : columnError (A.map (fun r => some r.dqdv)) (B.map (fun r => some r.dqdv)) = .ok (Real.sqrt (total : ℝ)) := by
    have e : ∀ l : List OverV, l.map (fun r => some r.dqdv) = (l.map OverV.dqdv).map some := fun l => by rw [List.map_map]; rfl
    rw [e, e, column_full (none_not_mem_some _) (none_not_mem_some _),
      squared_unique _ _ total (by rw [List.length_map, List.length_map]; exact hl) ht]
  constructor
  · intro h
    unfold errorDqdv
    rw [h]
    show caught1000 (columnError _ _) = _
    rw [key]
    rfl
  · intro spline h
    unfold initialErrorDqdv
    rw [h]
    exact key

/-- Parameters that cannot be emulated (weights outside of (0, 1], or for `dQdV` no emulated voltage) get the error 1000. -/
theorem C151_refused (pe ne1 pos neg real : Curve) (lli lamPe lamNe x2 a b : Rat) (m : Matched) (hreal : Distinct real)
    (hw : ∃ p ∈ real, ∃ q ∈ real, p.2 ≠ none ∧ q.2 ≠ none ∧ p.1 ≠ q.1)
    (h : matchV3 pe ne1 pos neg lli lamPe lamNe x2 real = .ok m) :
    (¬ (Weight a ∧ Weight b) → errorDvdq pe ne1 pos neg [lli, lamPe, lamNe, x2, a, b] real = .ok 1000) ∧
    (¬ (Weight a ∧ Weight b ∧ ∃ p ∈ m.emulated, p.2 ≠ none) → errorDqdv pe ne1 pos neg [lli, lamPe, lamNe, x2, a, b] real = .ok 1000) := by
  obtain ⟨lo, hi, hlh, g1, g2, hv1, l1, l2⟩ := matchV3_grid hreal hw h
  constructor
  · intro hn
    unfold errorDvdq
    simp only [slopesOf, degraded, h, withWeights, List.reverse_cons, List.reverse_nil, List.nil_append, List.cons_append]
    rcases dvdqBy_total a (c := m.real) (by omega) with ⟨wa, d, e1⟩ | ⟨wa, e1⟩
    · rcases dvdqBy_total b (c := m.emulated) (by omega) with ⟨wb, d', e2⟩ | ⟨wb, e2⟩
      · exact absurd ⟨wa, wb⟩ hn
      · rw [e1, e2]; rfl
    · rw [e1]; rfl
  · intro hn
    unfold errorDqdv
    simp only [slopesOf, degraded, h, withWeights, List.reverse_cons, List.reverse_nil, List.nil_append, List.cons_append]
    rcases dqdvBy_total a (c := m.real) (by omega) with ⟨wa, d, e1⟩ | ⟨wa, e1⟩
    · rcases dqdvBy_total b (c := m.emulated) (by omega) with ⟨wb, d', e2⟩ | ⟨wb, e2⟩
      · exact absurd ⟨wa.1, wb⟩ hn
      · rw [e1, e2]; rfl
    · rw [e1]; rfl

/-- Without a common voltage of the electrodes both errors raise an exception instead. -/
theorem C151_raises_violated (pe ne real : Curve) (lli lamPe lamNe x2 a b : Rat) (hax : pe.map Prod.fst = ne.map Prod.fst)
    (hno : ¬ ∃ k x a b, RowAt pe ne k x a b) :
    errorDvdq pe ne [] [] [lli, lamPe, lamNe, x2, a, b] real = .error .keyError ∧
    errorDqdv pe ne [] [] [lli, lamPe, lamNe, x2, a, b] real = .error .keyError := by
  have hb : blend ne [] [] x2 = .ok ne := rfl
  have hu : upperSetpoint pe ne = .error .keyError := by
    unfold upperSetpoint
    rw [(row_none hax upperV).2 hno]
  have hm : matchV3 pe ne [] [] lli lamPe lamNe x2 real = .error .keyError := by
    unfold matchV3 imposeDegradation
    rw [hb]
    simp only
    rw [hu]
  constructor
  · unfold errorDvdq
    simp only [slopesOf, degraded, hm]
    rfl
  · unfold errorDqdv
    simp only [slopesOf, degraded, hm]
    rfl

/-- the slope at the first row of rows whose first row is missing -/
theorem first_missing {a : Rat} {rows : List (Option Rat × Option Rat)} {d : List (Option Rat)} (h : SmoothedSlopesBy a rows d)
    {p : Option Rat × Option Rat} (hp : rows[0]? = some p) (hm : Missing p) : d[0]? = some none := by
  obtain ⟨g, h1, h2, h3⟩ := h
  have hl := (List.getElem?_eq_some_iff.1 hp).1
  obtain ⟨s, m, e1, e2, e3, e4⟩ := h3 0 hl
  have hs : s = none := slope_missing_row e3 hp hm
  rw [e2]
  rcases e4 with ⟨rfl, _⟩ | ⟨k, v, x, hk, e, _⟩
  · rfl
  · have : k = 0 := by omega
    subst this
    rw [e1, hs] at e
    cases e

/-- An emulated profile that only lacks the voltage of its first row is not given the penalty of a hundredth: its error is
1000, as if it could not be emulated at all. -/
theorem C151_gap_violated (pe ne1 pos neg real : Curve) (lli lamPe lamNe x2 a b x : Rat) (m : Matched) (hreal : Distinct real)
    (hw : ∃ p ∈ real, ∃ q ∈ real, p.2 ≠ none ∧ q.2 ≠ none ∧ p.1 ≠ q.1) (ha : Weight a) (hb : Weight b)
    (h : matchV3 pe ne1 pos neg lli lamPe lamNe x2 real = .ok m) (hg : m.emulated[0]? = some (x, none)) :
    errorDvdq pe ne1 pos neg [lli, lamPe, lamNe, x2, a, b] real = .ok 1000 := by
  obtain ⟨A, B, e, _, ⟨_, s2⟩⟩ := C150_dvdq pe ne1 pos neg real lli lamPe lamNe x2 a b m hreal hw ha hb h
  have h0 := first_missing s2 (p := (some x, none)) (by rw [List.getElem?_map, hg]; rfl) (Or.inr rfl)
  unfold errorDvdq
  rw [e]
  show caught1000 (columnError (A.map Prod.snd) (B.map Prod.snd)) = _
  rw [column_gap (Or.inr (List.mem_of_getElem? h0))]
  rfl

/-- An initial match that lacks an emulated voltage in any row ends the search with an exception, for `dVdQ` over Q. -/
theorem C151_initial_gap_violated (spline : Curve → Rat → Option Rat) (pe ne1 pos neg real : Curve) (ratio offset x2 x : Rat)
    (m : Matched) (h : initialMatch spline pe ne1 pos neg ratio offset x2 real = .ok m) (k : Nat)
    (hg : m.emulated[k]? = some (x, none)) :
    initialErrorOf dvdqOverQ spline pe ne1 pos neg ratio offset x2 real = .error .valueError := by
  obtain ⟨A, B, e, _, s1, s2⟩ := C142_dvdq spline pe ne1 pos neg real ratio offset x2 m h
  unfold initialErrorOf
  rw [e]
  show columnError (A.map Prod.snd) (B.map Prod.snd) = _
  apply column_gap
  right
  have hl : B.length = m.emulated.length := by have := congrArg List.length s1; rwa [List.length_map, List.length_map] at this
  have hk : k < B.length := by rw [hl]; exact (List.getElem?_eq_some_iff.1 hg).1
  have hs := s2 k B[k].1 B[k].2 (List.getElem?_eq_getElem hk)
  have := slope_missing_row hs (p := (some x, none)) (by rw [List.getElem?_map, hg]; rfl) (Or.inr rfl)
  rw [← this]
  exact List.mem_map_of_mem (List.getElem_mem hk)

/-! ### identical profiles -/

theorem slope_present {rows : List (Option Rat × Option Rat)} (hall : ∀ p ∈ rows, ¬ Missing p) {i : Nat} {s : Option Rat}
    (h : SlopeAt rows i s) : s ≠ none := by
  have row : ∀ (j : Nat) p, rows[j]? = some p → ¬ Missing p := fun j p hp => hall p (List.mem_of_getElem? hp)
  rintro rfl
  rcases h with ⟨rfl, u, v, hu, hv, hl⟩ | ⟨hi, _, u, v, hu, hv, hl⟩ | ⟨hi, u, v, w, hu, hv, hw, hl⟩
  · rcases hl with ⟨_, h | h⟩ | ⟨_, _, _, _, _, _, _, h, _⟩
    · exact row _ _ hu h
    · exact row _ _ hv h
    · cases h
  · rcases hl with ⟨_, h | h⟩ | ⟨_, _, _, _, _, _, _, h, _⟩
    · exact row _ _ hu h
    · exact row _ _ hv h
    · cases h
  · rcases hl with ⟨_, h | h | h⟩ | ⟨_, _, _, _, _, _, _, _, _, _, _, _, _, _, _, h⟩
    · exact row _ _ hu h
    · exact row _ _ hv h
    · exact row _ _ hw h
    · cases h

theorem smoothed_present {a : Rat} {rows : List (Option Rat × Option Rat)} {d : List (Option Rat)}
    (hall : ∀ p ∈ rows, ¬ Missing p) (h : SmoothedSlopesBy a rows d) : none ∉ d := by
  obtain ⟨g, h1, h2, h3⟩ := h
  intro hn
  obtain ⟨i, hi⟩ := List.getElem?_of_mem hn
  have hlt := (List.getElem?_eq_some_iff.1 hi).1
  obtain ⟨s, m, e1, e2, e3, e4⟩ := h3 i (by omega)
  rw [hi] at e2
  obtain rfl := Option.some.inj e2
  rcases e4 with ⟨_, e⟩ | ⟨_, _, _, _, _, _, e, _⟩
  · have := e i (le_refl _)
    rw [e1] at this
    exact slope_present hall e3 (Option.some.inj this)
  · cases e

theorem zero_sum {a : List (Option Rat)} : ((a.zip a).map (fun r => (r.1.getD 0 - r.2.getD 0) ^ 2)).sum = (0 : Rat) := by
  induction a with
  | nil => rfl
  | cons v a ih => rw [List.zip_cons_cons, List.map_cons, List.sum_cons, ih]; simp

/-- An emulated profile that is the measured one has the error 0, if both are smoothed with the same weight. -/
theorem C151_same_partial (pe ne1 pos neg real : Curve) (lli lamPe lamNe x2 a : Rat) (m : Matched) (hreal : Distinct real)
    (hw : ∃ p ∈ real, ∃ q ∈ real, p.2 ≠ none ∧ q.2 ≠ none ∧ p.1 ≠ q.1) (ha : Weight a)
    (h : matchV3 pe ne1 pos neg lli lamPe lamNe x2 real = .ok m) (hs : m.emulated = m.real) :
    errorDvdq pe ne1 pos neg [lli, lamPe, lamNe, x2, a, a] real = .ok 0 ∧
    errorDqdv pe ne1 pos neg [lli, lamPe, lamNe, x2, a, a] real = .ok 0 := by
  obtain ⟨lo, hi, hlh, g1, g2, hv1, l1, l2⟩ := matchV3_grid hreal hw h
  obtain ⟨_, hall, _, _, _⟩ := matchV3_rows hreal hw h
  constructor
  · obtain ⟨A, e1, _, s1⟩ := dvdqBy_spec ha (by omega) (grid_rising hlh g1)
    have hno : none ∉ A.map Prod.snd := by
      refine smoothed_present ?_ s1
      intro p hp hm
      obtain ⟨q, hq, rfl⟩ := List.mem_map.1 hp
      rcases hm with h | h
      · cases h
      · exact hall q hq h
    unfold errorDvdq
    simp only [slopesOf, degraded, h, withWeights, List.reverse_cons, List.reverse_nil, List.nil_append, List.cons_append, hs, e1]
    show caught1000 (columnError (A.map Prod.snd) (A.map Prod.snd)) = _
    rw [column_full hno hno, zero_sum]
    simp [caught1000]
  · rcases dqdvBy_total a (c := m.real) (by omega) with ⟨wa, d, e1⟩ | ⟨wa, e1⟩
    · unfold errorDqdv
      simp only [slopesOf, degraded, h, withWeights, List.reverse_cons, List.reverse_nil, List.nil_append, List.cons_append, hs, e1]
      show caught1000 (columnError (d.map (fun r => some r.dqdv)) (d.map (fun r => some r.dqdv))) = _
      have hno : none ∉ d.map (fun r => some r.dqdv) := by
        intro hn
        obtain ⟨_, _, e⟩ := List.mem_map.1 hn
        cases e
      rw [column_full hno hno, zero_sum]
      simp [caught1000]
    · exact absurd ⟨ha, hv1⟩ wa

/-- the first two smoothed slopes -/
theorem second_slope {a : Rat} (ha : Weight a) {p q r : Option Rat × Option Rat} {rest : List (Option Rat × Option Rat)} {s t : Rat}
    (h0 : slope p q = some s) (h1 : middle p q r = some t) :
    ∃ d, slopesBy a (p :: q :: r :: rest) = .ok (some s :: some (((1 - a) * s + t) / (1 - a + 1)) :: d) := by
  refine ⟨ewmByFrom a (some (((1 - a) * s + t) / (1 - a + 1), 1 - a + 1)) (slopes q r rest), ?_⟩
  unfold slopesBy
  have : gradient (p :: q :: r :: rest) = .ok (some s :: some t :: slopes q r rest) := by
    show Except.ok (slope p q :: slopes p q (r :: rest)) = _
    rw [h0]
    show Except.ok (some s :: middle p q r :: slopes q r rest) = _
    rw [h1]
  rw [this]
  simp only
  refine (if_pos ha).trans ?_
  simp [ewmByFrom, ewmStepBy]

theorem square_le_sum {a b : List (Option Rat)} {r : Option Rat × Option Rat} (h : r ∈ a.zip b) :
    (r.1.getD 0 - r.2.getD 0) ^ 2 ≤ ((a.zip b).map (fun r => (r.1.getD 0 - r.2.getD 0) ^ 2)).sum := by
  generalize a.zip b = l at h
  induction l with
  | nil => cases h
  | cons u l ih =>
    rw [List.map_cons, List.sum_cons]
    have nn : ∀ l : List (Option Rat × Option Rat), 0 ≤ (l.map (fun r => (r.1.getD 0 - r.2.getD 0) ^ 2)).sum := by
      intro l
      induction l with
      | nil => simp
      | cons v l ih => rw [List.map_cons, List.sum_cons]; have := sq_nonneg (v.1.getD 0 - v.2.getD 0); linarith
    rcases List.mem_cons.1 h with rfl | h
    · have := nn l; linarith
    · have := ih h; have := sq_nonneg (u.1.getD 0 - u.2.getD 0); linarith

/-- With two different weights an emulated profile that is the measured one has a positive error, unless its first three rows
are on a line. -/
theorem C151_same_violated (pe ne1 pos neg real : Curve) (lli lamPe lamNe x2 a b x0 x1 x3 v0 v1 v2 : Rat) (m : Matched)
    (hreal : Distinct real) (hw : ∃ p ∈ real, ∃ q ∈ real, p.2 ≠ none ∧ q.2 ≠ none ∧ p.1 ≠ q.1) (ha : Weight a) (hb : Weight b)
    (hab : a ≠ b) (h : matchV3 pe ne1 pos neg lli lamPe lamNe x2 real = .ok m) (hs : m.emulated = m.real)
    (h0 : m.real[0]? = some (x0, some v0)) (h1 : m.real[1]? = some (x1, some v1)) (h2 : m.real[2]? = some (x3, some v2))
    (hl : v2 - v1 ≠ v1 - v0) :
    ∃ e, errorDvdq pe ne1 pos neg [lli, lamPe, lamNe, x2, a, b] real = .ok e ∧ 0 < e := by
  obtain ⟨lo, hi, hlh, g1, g2, hv1, l1, l2⟩ := matchV3_grid hreal hw h
  obtain ⟨_, hall, _, _, _⟩ := matchV3_rows hreal hw h
  have hrise := grid_rising hlh g1
  -- the three rows
  have gx : ∀ (k : Nat) x v, k < 1001 → m.real[k]? = some (x, v) → x = lo + (k : Rat) * (hi - lo) / 1000 := by
    intro k x v hk e
    have : (m.real.map Prod.fst)[k]? = some x := by rw [List.getElem?_map, e]; rfl
    rw [g1, (even_linspace lo hi).2 k hk] at this
    exact (Option.some.inj this).symm
  have k0 := gx 0 _ _ (by norm_num) h0
  have k1 := gx 1 _ _ (by norm_num) h1
  have k2 := gx 2 _ _ (by norm_num) h2
  have d01 : x1 - x0 = (hi - lo) / 1000 := by rw [k0, k1]; push_cast; ring
  have d12 : x3 - x1 = (hi - lo) / 1000 := by rw [k1, k2]; push_cast; ring
  have hh : 0 < (hi - lo) / 1000 := by have : 0 < hi - lo := by linarith
                                       positivity
  generalize hstep : (hi - lo) / 1000 = w at d01 d12 hh
  obtain ⟨rest, hc⟩ : ∃ rest, m.real = (x0, some v0) :: (x1, some v1) :: (x3, some v2) :: rest := by
    match hm : m.real, l1 with
    | p :: q :: r :: rest, _ =>
      rw [hm] at h0 h1 h2
      simp only [List.getElem?_cons_zero, List.getElem?_cons_succ, Option.some.injEq] at h0 h1 h2
      exact ⟨rest, by rw [h0, h1, h2]⟩
  have es : slope (some x0, some v0) (some x1, some v1) = some ((v1 - v0) / w) := by
    rw [slope_some _ _ _ _ (by intro he; rw [he] at d01; linarith), d01]
  have em : ∃ t, middle (some x0, some v0) (some x1, some v1) (some x3, some v2) = some t ∧ t ≠ (v1 - v0) / w := by
    rw [middle_some _ _ _ _ _ _ (by linarith) (by linarith)]
    refine ⟨_, rfl, ?_⟩
    rw [d01, d12]
    intro he
    apply hl
    have hw0 : w ≠ 0 := hh.ne'
    field_simp at he
    linarith
  obtain ⟨t, em, hne⟩ := em
  have key : ∀ c, Weight c → ∃ d, dvdqBy c m.real = .ok d ∧ none ∉ d.map Prod.snd ∧
      (d.map Prod.snd)[1]? = some (some (((1 - c) * ((v1 - v0) / w) + t) / (1 - c + 1))) := by
    intro c hcw
    obtain ⟨d, hd, hfst, hsm⟩ := dvdqBy_spec hcw (by omega) hrise
    refine ⟨d, hd, ?_, ?_⟩
    · refine smoothed_present ?_ hsm
      intro p hp hm
      obtain ⟨q, hq, rfl⟩ := List.mem_map.1 hp
      rcases hm with h | h
      · cases h
      · exact hall q hq h
    · obtain ⟨d', hd'⟩ := second_slope hcw (rest := rest.map (fun p => (some p.1, p.2))) es em
      unfold dvdqBy at hd
      have hmap : m.real.map (fun p => (some p.1, p.2)) =
          (some x0, some v0) :: (some x1, some v1) :: (some x3, some v2) :: rest.map (fun p => (some p.1, p.2)) := by
        rw [hc]; rfl
      rw [hmap, hd'] at hd
      simp only [Except.ok.injEq] at hd
      rw [← hd, hc]
      rfl
  obtain ⟨A, eA, nA, vA⟩ := key a ha
  obtain ⟨B, eB, nB, vB⟩ := key b hb
  refine ⟨Real.sqrt (((((A.map Prod.snd).zip (B.map Prod.snd)).map (fun r => (r.1.getD 0 - r.2.getD 0) ^ 2)).sum : Rat) : ℝ), ?_, ?_⟩
  · unfold errorDvdq
    simp only [slopesOf, degraded, h, withWeights, List.reverse_cons, List.reverse_nil, List.nil_append, List.cons_append, hs, eA, eB]
    show caught1000 (columnError (A.map Prod.snd) (B.map Prod.snd)) = _
    rw [column_full nA nB]
    rfl
  · apply Real.sqrt_pos.2
    have hmem : (some (((1 - a) * ((v1 - v0) / w) + t) / (1 - a + 1)), some (((1 - b) * ((v1 - v0) / w) + t) / (1 - b + 1))) ∈
        (A.map Prod.snd).zip (B.map Prod.snd) := by
      apply List.mem_of_getElem? (i := 1)
      rw [List.getElem?_zip_eq_some]
      exact ⟨vA, vB⟩
    have hle := square_le_sum hmem
    simp only [Option.getD_some] at hle
    have hpa : (1 - a + 1) ≠ 0 := by have := ha.2; intro h; linarith
    have hpb : (1 - b + 1) ≠ 0 := by have := hb.2; intro h; linarith
    have hdiff : ((1 - a) * ((v1 - v0) / w) + t) / (1 - a + 1) - ((1 - b) * ((v1 - v0) / w) + t) / (1 - b + 1) ≠ 0 := by
      generalize (v1 - v0) / w = s at hne
      intro he
      have : (t - s) * (a - b) = 0 := by
        field_simp at he
        nlinarith
      rcases mul_eq_zero.1 this with h | h
      · exact hne (by linarith)
      · exact hab (by linarith)
    have hsq : 0 < (((1 - a) * ((v1 - v0) / w) + t) / (1 - a + 1) - ((1 - b) * ((v1 - v0) / w) + t) / (1 - b + 1)) ^ 2 := by positivity
    exact_mod_cast lt_of_lt_of_le hsq hle

/-- a cell without losses whose negative electrode is at 0 V has the voltage of the positive electrode -/
theorem plain_match {A B : Curve} (hax : A.map Prod.fst = linspace 0 100 1001) (hall : ∀ p ∈ A, p.2 ≠ none) (hB : IsFlat B 0) :
    (∀ R, matchV3 A B [] [] 0 0 0 1 R = onReal R A B A) ∧ present A = A ∧ range A = some (0, 100) ∧
      (linspace 0 100 1001).map (fun x => (x, interp A x)) = A := by
  have hlen : A.length = 1001 := by have := congrArg List.length hax; rwa [List.length_map, length_linspace] at this
  have hget : ∀ k : Nat, k < 1001 → ∃ v, A[k]? = some ((k : Rat) / 10, some v) := by
    intro k hk
    have hkl : k < A.length := by omega
    have e := List.getElem?_eq_getElem hkl
    have e1 : (A.map Prod.fst)[k]? = some A[k].1 := by rw [List.getElem?_map, e]; rfl
    rw [hax, (even_linspace 0 100).2 k hk] at e1
    cases hv : A[k].2 with
    | none => exact absurd hv (hall _ (List.getElem_mem hkl))
    | some v =>
      refine ⟨v, ?_⟩
      rw [e, ← hv]
      have e2 := Option.some.inj e1
      congr 1
      apply Prod.ext
      · simp only
        rw [← e2]
        ring
      · rfl
  obtain ⟨v, hv⟩ := hget 0 (by norm_num)
  have hov : ∃ k x a b, RowAt A B k x a b := ⟨0, _, v, 0, hv, hB.get 0 (by norm_num)⟩
  have hi := degradation_zero (x2 := 1) hlen hB.length (by rw [hax, hB.axis]) hov (realign_fixed hax hB.axis)
  have hpres : present A = A := present_id hall
  have hdist : Distinct A := even_distinct (by rw [hax]; exact even_linspace 0 100) (by norm_num)
  have hfix : (linspace 0 100 1001).map (fun x => (x, interp A x)) = A := by
    rw [← hax, List.map_map]
    conv_rhs => rw [← List.map_id A]
    apply List.map_congr_left
    intro q hq
    have : interp A q.1 = q.2 := (interp_iff A hdist (List.ne_nil_of_mem hq) _ _).2 (Or.inl hq)
    simp only [Function.comp, this, id]
  have hrange : range A = some (0, 100) := by
    rw [← hfix]; exact range_grid (by norm_num) _
  have hfull : fullCell A B = A := by
    apply List.ext_getElem?
    intro k
    unfold fullCell
    rw [List.getElem?_zipWith]
    by_cases hk : k < 1001
    · obtain ⟨v, hv⟩ := hget k hk
      rw [hv, hB.get k hk]
      simp [subN]
    · rw [List.getElem?_eq_none (l := A) (by rw [hlen]; omega)]
  have hmv : ∀ c : Curve, moveBy (-0) c = c := by
    intro c; rw [moveBy_eq]; exact affine_id _ _ rfl (by norm_num) c
  refine ⟨fun R => ?_, hpres, hrange, hfix⟩
  unfold matchV3
  rw [hi]
  simp only
  rw [hfull, hpres, hrange]
  simp only
  rw [hmv, hmv]

/-- a cell whose positive electrode is the measured profile, above a negative electrode of 0 V and without losses, is emulated
exactly -/
theorem self_match {A B : Curve} (hax : A.map Prod.fst = linspace 0 100 1001) (hall : ∀ p ∈ A, p.2 ≠ none) (hB : IsFlat B 0) :
    ∃ m, matchV3 A B [] [] 0 0 0 1 A = .ok m ∧ m.real = A ∧ m.emulated = A := by
  obtain ⟨h, hpres, hrange, hfix⟩ := plain_match hax hall hB
  refine ⟨⟨A, B, A, A⟩, ?_, rfl, rfl⟩
  rw [h]
  unfold onReal
  rw [hpres, hrange]
  simp only
  rw [hfix]

/-- a profile that rises with the square of the state of charge -/
def curved : Curve := (linspace 0 100 1001).map (fun x => (x, some (3 + x * x / 10000)))

theorem curved_axis : curved.map Prod.fst = linspace 0 100 1001 := by
  unfold curved; rw [List.map_map]; exact List.map_id'' (fun _ => rfl) _

theorem curved_get {k : Nat} (hk : k < 1001) : curved[k]? = some ((k : Rat) / 10, some (3 + (k : Rat) / 10 * ((k : Rat) / 10) / 10000)) := by
  unfold curved
  rw [List.getElem?_map, (even_linspace 0 100).2 k hk]
  have : (0 : Rat) + (k : Rat) * (100 - 0) / 1000 = (k : Rat) / 10 := by ring
  rw [this]
  rfl

/-- The curved profile is matched exactly: its error is 0 for equal weights and positive for the weights 1/10 and 1/5. -/
example : ∃ e, errorDvdq curved (flat 0) [] [] [0, 0, 0, 1, 1 / 10, 1 / 5] curved = .ok e ∧ 0 < e ∧
    errorDvdq curved (flat 0) [] [] [0, 0, 0, 1, 1 / 10, 1 / 10] curved = .ok 0 := by
  have hall : ∀ p ∈ curved, p.2 ≠ none := by
    intro p hp
    obtain ⟨x, _, rfl⟩ := List.mem_map.1 hp
    exact Option.some_ne_none _
  obtain ⟨m, hm, h1, h2⟩ := self_match curved_axis hall (flat_is 0)
  have hd : Distinct curved := even_distinct (by rw [curved_axis]; exact even_linspace 0 100) (by norm_num)
  have hw : ∃ p ∈ curved, ∃ q ∈ curved, p.2 ≠ none ∧ q.2 ≠ none ∧ p.1 ≠ q.1 :=
    ⟨_, List.mem_of_getElem? (curved_get (k := 0) (by norm_num)), _, List.mem_of_getElem? (curved_get (k := 1) (by norm_num)),
      Option.some_ne_none _, Option.some_ne_none _, by norm_num⟩
  have w1 : Weight (1 / 10) := ⟨by norm_num, by norm_num⟩
  have w2 : Weight (1 / 5) := ⟨by norm_num, by norm_num⟩
  obtain ⟨e, he, hp⟩ := C151_same_violated curved (flat 0) [] [] curved 0 0 0 1 (1 / 10) (1 / 5) _ _ _ _ _ _ m hd hw w1 w2 (by norm_num)
    hm (by rw [h1, h2]) (by rw [h1]; exact curved_get (k := 0) (by norm_num)) (by rw [h1]; exact curved_get (k := 1) (by norm_num))
    (by rw [h1]; exact curved_get (k := 2) (by norm_num)) (by norm_num)
  exact ⟨e, he, hp, (C151_same_partial curved (flat 0) [] [] curved 0 0 0 1 (1 / 10) m hd hw w1 hm (by rw [h1, h2])).1⟩

/-- a measured profile that begins 10 percent below the emulated cell -/
def early : Curve := [(-10, some 3), (50, some 3)]

theorem below_none {A : Curve} (hd : Distinct A) {x : Rat} (h : ∀ p ∈ A, x < p.1) : interp A x = none := by
  rcases interp_onCurve A hd x with h' | ⟨p, hp, _, _, h1, _⟩ | ⟨_, h'⟩
  · exact absurd (h _ h') (lt_irrefl _)
  · exact absurd (h p hp) (not_lt.2 h1.le)
  · exact h'

theorem grid_first (a b : Rat) (f : Rat → Option Rat) : ((linspace a b 1001).map (fun x => (x, f x)))[0]? = some (a, f a) := by
  rw [List.getElem?_map, (even_linspace a b).2 0 (by norm_num)]
  simp

/-- The first emulated voltage is missing: the error is 1000. -/
example : ∃ m x, matchV3 curved (flat 0) [] [] 0 0 0 1 early = .ok m ∧ m.emulated[0]? = some (x, none) ∧
    errorDvdq curved (flat 0) [] [] [0, 0, 0, 1, 1 / 10, 1 / 10] early = .ok 1000 := by
  have hall : ∀ p ∈ curved, p.2 ≠ none := by
    intro p hp
    obtain ⟨x, _, rfl⟩ := List.mem_map.1 hp
    exact Option.some_ne_none _
  obtain ⟨h, hpres, hrange, _⟩ := plain_match curved_axis hall (flat_is 0)
  have hd : Distinct curved := even_distinct (by rw [curved_axis]; exact even_linspace 0 100) (by norm_num)
  have hpos := ((range_iff ..).1 hrange).2.2
  have hr : range (present early) = some (-10, 50) := by decide +kernel
  obtain ⟨m, hm, he⟩ : ∃ m, matchV3 curved (flat 0) [] [] 0 0 0 1 early = .ok m ∧
      m.emulated = (linspace (-10) 50 1001).map (fun x => (x, interp curved x)) := by
    rw [h]
    unfold onReal
    rw [hr, hpres]
    simp only [Except.ok.injEq, exists_eq_left']
  have hg : m.emulated[0]? = some ((-10 : Rat), (none : Option Rat)) := by
    rw [he, grid_first, below_none hd (fun p hp => lt_of_lt_of_le (by norm_num) (hpos p hp).1)]
  refine ⟨m, -10, hm, hg, ?_⟩
  exact C151_gap_violated curved (flat 0) [] [] early 0 0 0 1 (1 / 10) (1 / 10) (-10) m (by unfold Distinct early; decide +kernel)
    ⟨_, List.mem_cons_self, _, List.mem_cons_of_mem _ List.mem_cons_self, by simp, by simp, by norm_num⟩
    ⟨by norm_num, by norm_num⟩ ⟨by norm_num, by norm_num⟩ hm hg

end Beep.Props.IntracellV1
