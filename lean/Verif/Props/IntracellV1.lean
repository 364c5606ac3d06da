import Verif.Model.IntracellV1
import Verif.Spec.IntracellV1
import Verif.Props.IntracellFit
/-
C140 and C141: the initial match of version 1 of the intracell analysis, and the errors of its fits.
-/
namespace Beep.Props.IntracellV1
open Beep Pandas Beep.Intracell Beep.IntracellFit Beep.IntracellV1 Beep.Spec.Intracell Beep.Spec.IntracellV1
open Beep.Props.Intracell Beep.Props.IntracellFit
open Beep.Interp (linspace length_linspace getElem?_linspace)

/-! ### C140: the initial match -/

theorem getElem?_affine {a b : Rat} (ha : a ≠ 0) (c : Curve) (k : Nat) (x : Rat) (v : Option Rat) :
    (affine a b c)[k]? = some (x, v) ↔ c[k]? = some ((x - b) / a, v) := by
  unfold affine
  rw [List.getElem?_map]
  cases c[k]? with
  | none => simp
  | some p =>
    obtain ⟨y, w⟩ := p
    simp only [Option.map_some, Option.some.injEq, Prod.mk.injEq]
    rw [eq_div_iff ha]
    constructor
    · rintro ⟨h1, h2⟩; exact ⟨by linarith, h2⟩
    · rintro ⟨h1, h2⟩; exact ⟨by linarith, h2⟩

theorem rowAt_affine {a b : Rat} (ha : a ≠ 0) (p n : Curve) (k : Nat) (x u v : Rat) :
    RowAt (affine a b p) (affine a b n) k x u v ↔ RowAt p n k ((x - b) / a) u v := by
  unfold RowAt
  rw [getElem?_affine ha, getElem?_affine ha]

theorem map_fst_affine (a b : Rat) (c : Curve) : (affine a b c).map Prod.fst = (c.map Prod.fst).map (fun x => x * a + b) := by
  unfold affine
  rw [List.map_map, List.map_map]
  rfl

/-- an electrode of the match, by the states of charge before it -/
theorem scaled_row {top z : Rat} (ht : top ≠ 0) (c : Curve) (k : Nat) (s : Rat) (v : Option Rat) :
    (affine (100 / top) 0 (moveBy (- z) c))[k]? = some (s, v) ↔ c[k]? = some (s * top / 100 + z, v) := by
  rw [getElem?_affine (div_ne_zero (by norm_num) ht), getElem?_moveBy]
  have : (s - 0) / (100 / top) - -z = s * top / 100 + z := by field_simp; ring
  rw [this]

theorem moveBy_clipped (d : Rat) (c : Curve) : clipped (moveBy d c) = moveBy d (clipped c) := by
  unfold clipped moveBy
  rw [List.map_map, List.map_map]
  rfl

/-- the rows within the limits, moved by `z` -/
theorem cell_mem {p n : Curve} (hax : p.map Prod.fst = n.map Prod.fst) {z x : Rat} {v : Option Rat} :
    (x, v) ∈ present (clipped (moveBy (- z) (fullCell p n))) ↔
      ∃ k a b, RowAt p n k (x + z) a b ∧ Within a b ∧ v = some (a - b) := by
  rw [present_mem, moveBy_clipped]
  constructor
  · rintro ⟨hm, hv⟩
    obtain ⟨k, hk⟩ := List.getElem?_of_mem hm
    rw [getElem?_moveBy, sub_neg_eq_add] at hk
    cases v with
    | none => exact absurd rfl hv
    | some w =>
      obtain ⟨a, b, hr, h1, h2, h3⟩ := (clipped_row p n hax k _ w).1 hk
      exact ⟨k, a, b, hr, ⟨h1, h2⟩, by rw [h3]⟩
  · rintro ⟨k, a, b, hr, hw, rfl⟩
    refine ⟨List.mem_of_getElem? (i := k) ?_, by simp⟩
    rw [getElem?_moveBy, sub_neg_eq_add]
    exact (clipped_row p n hax k _ _).2 ⟨a, b, hr, hw.1, hw.2, rfl⟩

/-- what an accepted initial match is made of -/
theorem initial_parts {spline : Curve → Rat → Option Rat} {pe ne1 pos neg ne real : Curve} {ratio offset x2 : Rat}
    {m : Matched} (ha : anode ne1 pos neg x2 = .ok ne)
    (h : initialMatch spline pe ne1 pos neg ratio offset x2 real = .ok m) :
    ∃ p n k z lo top, realign (affine ratio offset pe) ne = .ok (p, n) ∧
      nearest lowerV ((fullCell p n).map Prod.snd) = some k ∧ (fullCell p n)[k]? = some z ∧
      range (present (clipped (moveBy (- z.1) (fullCell p n)))) = some (lo, top) ∧
      top ≠ 0 ∧ 3 ≤ (present (clipped (moveBy (- z.1) (fullCell p n)))).length ∧ real ≠ [] ∧
      m = ⟨affine (100 / top) 0 (moveBy (- z.1) p), affine (100 / top) 0 (moveBy (- z.1) n),
        (linspace 0 100 1001).map (fun x => (x, interpFill lowerV upperV real x)),
        (linspace 0 100 1001).map (fun x =>
          (x, spline (affine (100 / top) 0 (present (clipped (moveBy (- z.1) (fullCell p n))))) x))⟩ := by
  unfold initialMatch at h
  rw [ha] at h
  simp only at h
  cases hr : realign (affine ratio offset pe) ne with
  | error e => rw [hr] at h; cases h
  | ok r =>
    obtain ⟨p, n⟩ := r
    rw [hr] at h
    simp only at h
    cases hk : nearest lowerV ((fullCell p n).map Prod.snd) with
    | none => rw [hk] at h; cases h
    | some k =>
      rw [hk] at h
      simp only at h
      cases hz : (fullCell p n)[k]? with
      | none => rw [hz] at h; cases h
      | some z =>
        rw [hz] at h
        simp only at h
        cases hg : range (present (clipped (moveBy (- z.1) (fullCell p n)))) with
        | none => rw [hg] at h; cases h
        | some r =>
          obtain ⟨lo, top⟩ := r
          rw [hg] at h
          simp only at h
          split at h
          · cases h
          · rename_i hc
            rw [not_or, not_or] at hc
            refine ⟨p, n, k, z, lo, top, rfl, hk, hz, hg, hc.1, by omega, ?_, (Except.ok.inj h).symm⟩
            intro he
            rw [he] at hc
            exact hc.2.2 rfl

/-- the negative electrode `ne` of the initial match: the first material alone unless both files of a second material
are given, their blend otherwise -/
def Anode (ne1 pos neg : Curve) (x2 : Rat) (ne : Curve) : Prop :=
  ((pos = [] ∨ neg = []) ∧ ne = ne1) ∨ (pos ≠ [] ∧ neg ≠ [] ∧ blend ne1 pos neg x2 = .ok ne)

theorem anode_ok {ne1 pos neg ne : Curve} {x2 : Rat} (h : Anode ne1 pos neg x2 ne) : anode ne1 pos neg x2 = .ok ne := by
  unfold anode
  rcases h with ⟨h, rfl⟩ | ⟨h1, h2, h⟩
  · rw [if_pos]
    rcases h with rfl | rfl <;> simp
  · rw [if_neg]
    · exact h
    · cases pos with
      | nil => exact absurd rfl h1
      | cons a l => cases neg with
        | nil => exact absurd rfl h2
        | cons b r => simp

/-- The initial match gives both electrodes on the same 1001 states of charge.  At a state of charge `s` the electrodes
have the voltages of the pristine ones at states of charge that are linear in `s`: the positive one is stretched by the
ratio of the capacities and moved by the offset, relative to the negative one.  The state of charge is 0 in the row in
which the full cell is nearest to 2.7 V, and 100 in a row within the limits; it is at most 100 in all rows within the
limits if they are not below the row of 0. -/
theorem C140_match (spline : Curve → Rat → Option Rat) (pe ne1 pos neg ne real : Curve) (ratio offset x2 : Rat)
    (m : Matched) (ha : Anode ne1 pos neg x2 ne) (hpe : Distinct pe) (hne : Distinct ne) (hr : 0 < ratio)
    (h : initialMatch spline pe ne1 pos neg ratio offset x2 real = .ok m) :
    m.pe.map Prod.fst = m.ne.map Prod.fst ∧ m.pe.length = 1001 ∧
    (∃ z top : Rat, top ≠ 0 ∧
      (∀ s v, (s, v) ∈ m.pe → OnCurve pe ((s * top / 100 + z - offset) / ratio) v) ∧
      (∀ s v, (s, v) ∈ m.ne → OnCurve ne (s * top / 100 + z) v) ∧
      (0 < top → ∀ j s a b, RowAt m.pe m.ne j s a b → Within a b → s ≤ 100)) ∧
    (∃ k a b, Nearest m.pe m.ne (27 / 10) k ∧ RowAt m.pe m.ne k 0 a b) ∧
    (∃ j a b, RowAt m.pe m.ne j 100 a b ∧ Within a b) := by
  obtain ⟨p, n, k, z, lo, top, hre, hk, hz, hg, ht, _, _, hm⟩ := initial_parts (anode_ok ha) h
  obtain ⟨_, _, a0, b0, _, hev, hax, hp, hn⟩ := realign_ok hre (affine_distinct hr hpe) hne
  have hmp : m.pe = affine (100 / top) 0 (moveBy (- z.1) p) := by rw [hm]
  have hmn : m.ne = affine (100 / top) 0 (moveBy (- z.1) n) := by rw [hm]
  have key : ∀ j s a b, RowAt m.pe m.ne j s a b ↔ RowAt p n j (s * top / 100 + z.1) a b := by
    intro j s a b
    unfold RowAt
    rw [hmp, hmn, scaled_row ht, scaled_row ht]
  have inv : ∀ x : Rat, (x - z.1) * 100 / top * top / 100 + z.1 = x := by
    intro x; field_simp; ring
  refine ⟨?_, ?_, ⟨z.1, top, ht, ?_, ?_, ?_⟩, ?_, ?_⟩
  · rw [hmp, hmn, map_fst_affine, map_fst_affine, map_fst_moveBy, map_fst_moveBy, hax]
  · have := hev.1
    rw [List.length_map] at this
    rw [hmp]
    unfold affine moveBy
    rw [List.length_map, List.length_map, this]
  · intro s v hs
    rw [hmp] at hs
    obtain ⟨j, hj⟩ := List.getElem?_of_mem hs
    rw [scaled_row ht] at hj
    exact onCurve_affine hr (hp _ _ (List.mem_of_getElem? hj))
  · intro s v hs
    rw [hmn] at hs
    obtain ⟨j, hj⟩ := List.getElem?_of_mem hs
    rw [scaled_row ht] at hj
    exact hn _ _ (List.mem_of_getElem? hj)
  · intro hpos j s a b hrow hw
    have := ((range_iff ..).1 hg).2.2 (s * top / 100, some (a - b))
      ((cell_mem hax).2 ⟨j, a, b, (key ..).1 hrow, hw, rfl⟩)
    have h2 : s * top / 100 ≤ top := this.2
    have h3 : s * top ≤ 100 * top := by linarith
    exact le_of_mul_le_mul_right h3 hpos
  · obtain ⟨x, a, b, hrow, hbest⟩ := (nearest_iff p n hax _ _).1 hk
    have hz1 : z.1 = x := by
      have hs : (fullCell p n)[k]? = some (x, some (a - b)) :=
        (fullCell_getElem? p n hax k x (some (a - b))).2 ⟨some a, some b, hrow.1, hrow.2, rfl⟩
      rw [hz] at hs
      rw [Option.some.inj hs]
    have h0 : RowAt m.pe m.ne k 0 a b := by
      rw [key]
      rw [← hz1] at hrow
      have : (0 : Rat) * top / 100 + z.1 = z.1 := by ring
      rw [this]; exact hrow
    refine ⟨k, a, b, ⟨0, a, b, h0, ?_⟩, h0⟩
    intro j y q w hj
    exact hbest j _ q w ((key ..).1 hj)
  · obtain ⟨_, ⟨q, hq, hqt⟩, _⟩ := (range_iff ..).1 hg
    obtain ⟨qx, qv⟩ := q
    simp only at hqt
    subst hqt
    obtain ⟨j, a, b, hrow, hw, _⟩ := (cell_mem hax).1 hq
    refine ⟨j, a, b, ?_, hw⟩
    rw [key]
    have : (100 : Rat) * qx / 100 + z.1 = qx + z.1 := by ring
    rw [this]; exact hrow

theorem interpFill_continued {real : Curve} (hd : Distinct real) (hne : real ≠ []) (s : Rat) :
    Continued real s (interpFill lowerV upperV real s) := by
  unfold interpFill
  have hr : ∃ a b, range real = some (a, b) := by
    cases h : range real with
    | none => rw [range_none] at h; exact absurd h hne
    | some r => exact ⟨r.1, r.2, rfl⟩
  obtain ⟨a, b, hr⟩ := hr
  obtain ⟨⟨p, hp, hpa⟩, ⟨q, hq, hqb⟩, hall⟩ := (range_iff ..).1 hr
  unfold range at hr
  cases h1 : minN (real.map (fun p => some p.1)) with
  | none => rw [h1] at hr; cases hr
  | some a' => cases h2 : maxN (real.map (fun p => some p.1)) with
    | none => rw [h1, h2] at hr; cases hr
    | some b' =>
      rw [h1, h2] at hr
      obtain ⟨rfl, rfl⟩ := Prod.mk.inj (Option.some.inj hr)
      simp only
      have hab := (hall p hp)
      refine ⟨?_, ?_, ?_⟩
      · intro h
        have := h p hp
        rw [hpa] at this
        rw [if_pos this]; rfl
      · intro h
        have h3 := h q hq
        rw [hqb] at h3
        have h4 : ¬ s < a' := by
          have := h p hp
          rw [hpa] at this
          exact not_lt.2 this.le
        rw [if_neg h4, if_pos h3]; rfl
      · rintro ⟨r, hr1, hr2⟩ ⟨t, ht1, ht2⟩
        have h3 : ¬ s < a' := not_lt.2 (le_trans (hall r hr1).1 hr2)
        have h4 : ¬ b' < s := not_lt.2 (le_trans ht2 (hall t ht1).2)
        rw [if_neg h3, if_neg h4]
        exact interp_onCurve real hd s

/-- The two profiles of the initial match are on the states of charge 0, 0.1, … 100.  The measured one is continued with
the voltage limits.  The emulated one is interpolated between exactly the rows in which the full cell is within the
limits, whatever the method of interpolation. -/
theorem C140_profiles (spline : Curve → Rat → Option Rat) (pe ne1 pos neg ne real : Curve) (ratio offset x2 : Rat)
    (m : Matched) (ha : Anode ne1 pos neg x2 ne) (hpe : Distinct pe) (hne : Distinct ne) (hr : 0 < ratio)
    (hreal : Distinct real) (h : initialMatch spline pe ne1 pos neg ratio offset x2 real = .ok m) :
    Even (m.real.map Prod.fst) 0 100 ∧ m.real.map Prod.fst = m.emulated.map Prod.fst ∧
    (∀ s v, (s, v) ∈ m.real → Continued real s v) ∧
    ∃ c, (∀ s v, (s, v) ∈ c ↔ ∃ k a b, RowAt m.pe m.ne k s a b ∧ Within a b ∧ v = some (a - b)) ∧
      ∀ s v, (s, v) ∈ m.emulated → v = spline c s := by
  obtain ⟨p, n, k, z, lo, top, hre, hk, hz, hg, ht, _, hnr, hm⟩ := initial_parts (anode_ok ha) h
  obtain ⟨_, _, a0, b0, _, hev, hax, hp, hn⟩ := realign_ok hre (affine_distinct hr hpe) hne
  have hmp : m.pe = affine (100 / top) 0 (moveBy (- z.1) p) := by rw [hm]
  have hmn : m.ne = affine (100 / top) 0 (moveBy (- z.1) n) := by rw [hm]
  have hmr : m.real = (linspace 0 100 1001).map (fun x => (x, interpFill lowerV upperV real x)) := by rw [hm]
  have hme : m.emulated = (linspace 0 100 1001).map (fun x =>
      (x, spline (affine (100 / top) 0 (present (clipped (moveBy (- z.1) (fullCell p n))))) x)) := by rw [hm]
  have f1 : m.real.map Prod.fst = linspace 0 100 1001 := by
    rw [hmr, List.map_map]; exact List.map_id'' (fun _ => rfl) _
  have f2 : m.emulated.map Prod.fst = linspace 0 100 1001 := by
    rw [hme, List.map_map]; exact List.map_id'' (fun _ => rfl) _
  refine ⟨by rw [f1]; exact even_linspace 0 100, by rw [f1, f2], ?_,
    affine (100 / top) 0 (present (clipped (moveBy (- z.1) (fullCell p n)))), ?_, ?_⟩
  · intro s v hs
    rw [hmr] at hs
    obtain ⟨x, _, he⟩ := List.mem_map.1 hs
    obtain ⟨rfl, rfl⟩ := Prod.mk.inj he
    exact interpFill_continued hreal hnr x
  · intro s v
    have key : (s, v) ∈ affine (100 / top) 0 (present (clipped (moveBy (- z.1) (fullCell p n)))) ↔
        (s * top / 100, v) ∈ present (clipped (moveBy (- z.1) (fullCell p n))) := by
      have e : (s - 0) / (100 / top) = s * top / 100 := by field_simp; ring
      constructor
      · intro hs
        obtain ⟨j, hj⟩ := List.getElem?_of_mem hs
        rw [getElem?_affine (div_ne_zero (by norm_num) ht), e] at hj
        exact List.mem_of_getElem? hj
      · intro hs
        obtain ⟨j, hj⟩ := List.getElem?_of_mem hs
        rw [← e, ← getElem?_affine (div_ne_zero (by norm_num) ht)] at hj
        exact List.mem_of_getElem? hj
    rw [key, cell_mem hax]
    have rows : ∀ j a b, RowAt m.pe m.ne j s a b ↔ RowAt p n j (s * top / 100 + z.1) a b := by
      intro j a b
      unfold RowAt
      rw [hmp, hmn, scaled_row ht, scaled_row ht]
    constructor
    · rintro ⟨j, a, b, hrow, hw, hv⟩; exact ⟨j, a, b, (rows ..).2 hrow, hw, hv⟩
    · rintro ⟨j, a, b, hrow, hw, hv⟩; exact ⟨j, a, b, (rows ..).1 hrow, hw, hv⟩
  · intro s v hs
    rw [hme] at hs
    obtain ⟨x, _, he⟩ := List.mem_map.1 hs
    obtain ⟨rfl, rfl⟩ := Prod.mk.inj he
    rfl

/-- With one file of the second material only, neither the file nor its fraction has any effect on the initial match,
whereas the fits after it blend the material in. -/
theorem C140_one_file_violated (spline : Curve → Rat → Option Rat) (pe ne1 pos real : Curve) (ratio offset x2 : Rat) :
    initialMatch spline pe ne1 pos [] ratio offset x2 real = initialMatch spline pe ne1 [] [] ratio offset 0 real := by
  have h1 : anode ne1 pos [] x2 = .ok ne1 := by unfold anode; simp
  have h2 : anode ne1 [] [] 0 = .ok ne1 := rfl
  unfold initialMatch
  rw [h1, h2]

/-- The initial match succeeds for electrodes of 1001 rows whose full cell, joined at the given ratio and offset, has three
rows within the limits, one of them above the row nearest to 2.7 V. -/
theorem C140_accepts (spline : Curve → Rat → Option Rat) (pe ne1 pos neg ne real p n : Curve) (ratio offset x2 : Rat)
    (ha : Anode ne1 pos neg x2 ne) (hre : realign (affine ratio offset pe) ne = .ok (p, n))
    (hax : p.map Prod.fst = n.map Prod.fst) (hreal : real ≠ []) (k : Nat) (z a b : Rat)
    (hk : Nearest p n (27 / 10) k) (hz : RowAt p n k z a b)
    (h3 : ∃ i x a b j y c d l w e f, RowAt p n i x a b ∧ RowAt p n j y c d ∧ RowAt p n l w e f ∧
      Within a b ∧ Within c d ∧ Within e f ∧ x < y ∧ y < w ∧ z < w) :
    ∃ m, initialMatch spline pe ne1 pos neg ratio offset x2 real = .ok m := by
  obtain ⟨i, x, a1, b1, j, y, c, d, l, w, e, f, r1, r2, r3, w1, w2, w3, hxy, hyw, hzw⟩ := h3
  have hn := (nearest_iff p n hax _ _).2 hk
  have hf : (fullCell p n)[k]? = some (z, some (a - b)) :=
    (fullCell_getElem? p n hax k z (some (a - b))).2 ⟨some a, some b, hz.1, hz.2, rfl⟩
  have m1 := (cell_mem hax (z := z) (x := x - z)).2 ⟨i, a1, b1, by rw [sub_add_cancel]; exact r1, w1, rfl⟩
  have m2 := (cell_mem hax (z := z) (x := y - z)).2 ⟨j, c, d, by rw [sub_add_cancel]; exact r2, w2, rfl⟩
  have m3 := (cell_mem hax (z := z) (x := w - z)).2 ⟨l, e, f, by rw [sub_add_cancel]; exact r3, w3, rfl⟩
  unfold initialMatch
  rw [anode_ok ha]
  simp only
  rw [hre]
  simp only
  have hl : lowerV = 27 / 10 := rfl
  rw [hl, hn]
  simp only
  rw [hf]
  simp only
  cases hg : range (present (clipped (moveBy (- z) (fullCell p n)))) with
  | none =>
    rw [range_none] at hg
    rw [hg] at m1
    cases m1
  | some r =>
    obtain ⟨lo, top⟩ := r
    simp only
    rw [if_neg]
    · exact ⟨_, rfl⟩
    · rintro (h | h | h)
      · have := (((range_iff ..).1 hg).2.2 _ m3).2
        simp only at this
        rw [h] at this
        linarith
      · have hnd : [(x - z, some (a1 - b1)), (y - z, some (c - d)), (w - z, some (e - f))].Nodup := by
          simp only [List.nodup_cons, List.mem_cons, Prod.mk.injEq, List.not_mem_nil, or_false, not_false_eq_true,
            List.nodup_nil, and_true, not_or, not_and]
          refine ⟨⟨fun h => absurd h ?_, fun h => absurd h ?_⟩, fun h => absurd h ?_⟩
          · exact ne_of_lt (by linarith)
          · exact ne_of_lt (by linarith)
          · exact ne_of_lt (by linarith)
        have := (hnd.subperm (l₂ := present (clipped (moveBy (- z) (fullCell p n)))) (by
          intro q hq
          simp only [List.mem_cons, List.not_mem_nil, or_false] at hq
          rcases hq with rfl | rfl | rfl
          · exact m1
          · exact m2
          · exact m3)).length_le
        simp only [List.length_cons, List.length_nil] at this
        omega
      · cases real with
        | nil => exact hreal rfl
        | cons r l => cases h

/-- It is refused if no row is within the limits, and for electrodes that do not have 1001 rows. -/
theorem C140_refused (spline : Curve → Rat → Option Rat) (pe ne1 pos neg ne real : Curve) (ratio offset x2 : Rat)
    (ha : Anode ne1 pos neg x2 ne)
    (h : (pe.length ≠ 1001 ∨ ne.length ≠ 1001) ∨ ∃ p n, realign (affine ratio offset pe) ne = .ok (p, n) ∧
      p.map Prod.fst = n.map Prod.fst ∧ ∀ k x a b, RowAt p n k x a b → ¬ Within a b) :
    initialMatch spline pe ne1 pos neg ratio offset x2 real = .error .valueError := by
  unfold initialMatch
  rw [anode_ok ha]
  simp only
  rcases h with h | ⟨p, n, hre, hax, hno⟩
  · rw [realign_refuses (by unfold affine; rw [List.length_map]; exact h)]
  · rw [hre]
    simp only
    cases hk : nearest lowerV ((fullCell p n).map Prod.snd) with
    | none => rfl
    | some k =>
      simp only
      cases hf : (fullCell p n)[k]? with
      | none =>
        obtain ⟨x, a, b, hrow, _⟩ := (nearest_iff p n hax _ _).1 hk
        rw [(fullCell_getElem? p n hax k x (some (a - b))).2 ⟨some a, some b, hrow.1, hrow.2, rfl⟩] at hf
        cases hf
      | some z =>
        simp only
        have : present (clipped (moveBy (- z.1) (fullCell p n))) = [] := by
          rw [List.eq_nil_iff_forall_not_mem]
          rintro ⟨x, v⟩ hm
          obtain ⟨k, a, b, hrow, hw, _⟩ := (cell_mem hax).1 hm
          exact hno _ _ _ _ hrow hw
        rw [this]
        rfl

/-- the initial match of the examples -/
theorem sample_initial (spline : Curve → Rat → Option Rat) :
    ∃ m, initialMatch spline samplePe sampleNe [] [] 1 0 1 samplePe = .ok m := by
  have hre : realign (affine 1 0 samplePe) sampleNe = .ok (samplePe, sampleNe) := by
    rw [affine_id _ _ rfl rfl]; exact sample_realign
  have row : ∀ k : Nat, k < 1001 → RowAt samplePe sampleNe k ((k : Rat) / 10) (2 + (k : Rat) / 400) 0 :=
    fun k hk => (sample_row ..).2 ⟨hk, rfl, rfl, rfl⟩
  refine C140_accepts spline samplePe sampleNe [] [] sampleNe samplePe samplePe sampleNe 1 0 1 (Or.inl ⟨Or.inl rfl, rfl⟩)
    hre sample_axis sample_ne.1 280 _ _ _ ⟨_, _, _, row 280 (by norm_num), ?_⟩ (row 280 (by norm_num))
    ⟨280, _, _, _, 400, _, _, _, 800, _, _, _, row 280 (by norm_num), row 400 (by norm_num), row 800 (by norm_num),
      ?_, ?_, ?_, ?_, ?_, ?_⟩
  · intro j y q m hj
    obtain ⟨hj1, rfl, rfl, rfl⟩ := (sample_row ..).1 hj
    have e : off (27 / 10) ((2 + ((280 : Nat) : Rat) / 400) - 0) = 0 := by unfold off; norm_num
    rw [e]
    unfold off
    refine ⟨?_, fun hlt => ?_⟩
    · split <;> linarith
    · have h1 : (j : Rat) ≤ 279 := by exact_mod_cast (by omega : j ≤ 279)
      rw [if_pos (by linarith)]
      linarith
  · exact ⟨by norm_num, by norm_num⟩
  · exact ⟨by norm_num, by norm_num⟩
  · exact ⟨by norm_num, by norm_num⟩
  · norm_num
  · norm_num
  · norm_num

example (spline : Curve → Rat → Option Rat) : ∃ m, initialMatch spline samplePe sampleNe [] [] 1 0 1 samplePe = .ok m ∧
    Anode sampleNe [] [] 1 sampleNe ∧ Distinct samplePe ∧ Distinct sampleNe := by
  obtain ⟨m, hm⟩ := sample_initial spline
  exact ⟨m, hm, Or.inl ⟨Or.inl rfl, rfl⟩, samplePe_distinct, sampleNe_distinct⟩

end Beep.Props.IntracellV1
