import Verif.Proof.Degradation
import Verif.Proof.Interp
import Verif.Proof.Py
/-
Lemmas about the interpolated degradation curve, the search on the grid and the kink filter.
-/
namespace Beep.Proof.Threshold
open Beep Pandas Degradation Spec.Degradation

theorem absR_eq (x : Rat) : absR x = |x| := by
  unfold absR
  split_ifs with h
  · rw [abs_of_neg h]
  · rw [abs_of_nonneg (not_lt.1 h)]

theorem onLine_cons {a : Rat × Rat} {pts : List (Rat × Rat)} {x y : Rat} (h : OnLine pts x y)
    (ha : ∀ p ∈ pts, a.1 < p.1) : OnLine (a :: pts) x y := by
  obtain ⟨u, hu, v, hv, h1, h2, h3, h4, h5⟩ := h
  refine ⟨u, List.mem_cons_of_mem _ hu, v, List.mem_cons_of_mem _ hv, h1, h2, h3, ?_, h5⟩
  intro c hc
  rcases List.mem_cons.1 hc with rfl | hc
  · exact .inl (ha u hu).le
  · exact h4 c hc

theorem onLine_first {a b : Rat × Rat} {rest : List (Rat × Rat)} {x y : Rat}
    (hs : (a :: b :: rest).Pairwise (fun p q => p.1 < q.1)) (h1 : a.1 ≤ x) (h2 : x ≤ b.1)
    (hy : (y - a.2) * (b.1 - a.1) = (b.2 - a.2) * (x - a.1)) : OnLine (a :: b :: rest) x y := by
  rw [List.pairwise_cons] at hs
  have hs2 := List.pairwise_cons.1 hs.2
  refine ⟨a, by simp, b, by simp, hs.1 b (by simp), h1, h2, ?_, hy⟩
  intro c hc
  rcases List.mem_cons.1 hc with rfl | hc
  · exact .inl le_rfl
  · rcases List.mem_cons.1 hc with rfl | hc
    · exact .inr le_rfl
    · exact .inr (hs2.1 c hc).le

theorem line_value {a b : Rat × Rat} (x : Rat) (h : a.1 < b.1) :
    (a.2 + (b.2 - a.2) / (b.1 - a.1) * (x - a.1) - a.2) * (b.1 - a.1) = (b.2 - a.2) * (x - a.1) := by
  have : b.1 - a.1 ≠ 0 := by linarith
  field_simp
  ring

theorem evalNp_on : ∀ (a b : Rat × Rat) (rest : List (Rat × Rat)) (x : Rat),
    (a :: b :: rest).Pairwise (fun p q => p.1 < q.1) → a.1 ≤ x → (∃ p ∈ a :: b :: rest, x ≤ p.1) →
    ∃ y, evalNp (a :: b :: rest) x = some y ∧ OnLine (a :: b :: rest) x y := by
  intro a b rest
  induction rest generalizing a b with
  | nil =>
    intro x hs h1 h2
    have hab : a.1 < b.1 := (List.pairwise_cons.1 hs).1 b (by simp)
    have hxb : x ≤ b.1 := by
      obtain ⟨p, hp, hx⟩ := h2
      rcases List.mem_cons.1 hp with rfl | hp
      · linarith
      · rw [List.mem_singleton] at hp
        subst hp
        exact hx
    by_cases hb : b.1 ≤ x
    · refine ⟨b.2, by simp [evalNp, hb], onLine_first hs h1 hxb ?_⟩
      have : x = b.1 := le_antisymm hxb hb
      rw [this]
    · by_cases ha : a.1 = x
      · refine ⟨a.2, by simp [evalNp, hb, ha], onLine_first hs h1 hxb ?_⟩
        rw [ha]; ring
      · refine ⟨_, by simp only [evalNp, hb, if_false, ha], onLine_first hs h1 hxb (line_value x hab)⟩
  | cons c rest ih =>
    intro x hs h1 h2
    have hs' := List.pairwise_cons.1 hs
    have hab : a.1 < b.1 := hs'.1 b (by simp)
    by_cases hb : b.1 ≤ x
    · obtain ⟨y, e, hon⟩ := ih b c x hs'.2 hb (by
        obtain ⟨p, hp, hx⟩ := h2
        rcases List.mem_cons.1 hp with rfl | hp
        · linarith
        · exact ⟨p, hp, hx⟩)
      refine ⟨y, ?_, onLine_cons hon hs'.1⟩
      rw [evalNp, if_pos hb]
      exact e
    · by_cases ha : a.1 = x
      · refine ⟨a.2, by simp [evalNp, hb, ha], onLine_first hs h1 (not_le.1 hb).le ?_⟩
        rw [ha]; ring
      · refine ⟨_, by simp only [evalNp, hb, if_false, ha], onLine_first hs h1 (not_le.1 hb).le (line_value x hab)⟩

theorem segment_on : ∀ (a b : Rat × Rat) (rest : List (Rat × Rat)) (x : Rat),
    (a :: b :: rest).Pairwise (fun p q => p.1 < q.1) → a.1 ≤ x → (∃ p ∈ a :: b :: rest, x ≤ p.1) →
    ∃ u v, segment (a :: b :: rest) x = some (u, v) ∧ u.1 < v.1 ∧
      OnLine (a :: b :: rest) x (u.2 + (v.2 - u.2) / (v.1 - u.1) * (x - u.1)) := by
  intro a b rest
  induction rest generalizing a b with
  | nil =>
    intro x hs h1 h2
    have hab : a.1 < b.1 := (List.pairwise_cons.1 hs).1 b (by simp)
    have hxb : x ≤ b.1 := by
      obtain ⟨p, hp, hx⟩ := h2
      rcases List.mem_cons.1 hp with rfl | hp
      · linarith
      · rw [List.mem_singleton] at hp
        subst hp
        exact hx
    exact ⟨a, b, rfl, hab, onLine_first hs h1 hxb (line_value x hab)⟩
  | cons c rest ih =>
    intro x hs h1 h2
    have hs' := List.pairwise_cons.1 hs
    have hab : a.1 < b.1 := hs'.1 b (by simp)
    by_cases hb : x ≤ b.1
    · exact ⟨a, b, by simp [segment, hb], hab, onLine_first hs h1 hb (line_value x hab)⟩
    · obtain ⟨u, v, e, huv, hon⟩ := ih b c x hs'.2 (not_le.1 hb).le (by
        obtain ⟨p, hp, hx⟩ := h2
        rcases List.mem_cons.1 hp with rfl | hp
        · linarith
        · exact ⟨p, hp, hx⟩)
      refine ⟨u, v, ?_, huv, onLine_cons hon hs'.1⟩
      rw [segment, if_neg hb]
      exact e

/-- both ways of interpolating give the curve through the points -/
theorem dist_on (np : Bool) {pts : List (Rat × Rat)} {x thr : Rat} (h2 : 2 ≤ pts.length)
    (hs : pts.Pairwise (fun p q => p.1 < q.1)) (hlo : ∃ p ∈ pts, p.1 ≤ x) (hhi : ∃ p ∈ pts, x ≤ p.1) :
    ∃ y, (if np then distNp pts thr else distSp pts thr) x = .val |y - thr| ∧ OnLine pts x y := by
  match pts, h2 with
  | a :: b :: rest, _ =>
    have ha : a.1 ≤ x := by
      obtain ⟨p, hp, hx⟩ := hlo
      rcases List.mem_cons.1 hp with rfl | hp
      · exact hx
      · exact ((List.pairwise_cons.1 hs).1 p hp).le.trans hx
    cases np with
    | true =>
      obtain ⟨y, e, hon⟩ := evalNp_on a b rest x hs ha hhi
      refine ⟨y, ?_, hon⟩
      simp [distNp, e, absR_eq]
    | false =>
      obtain ⟨u, v, e, huv, hon⟩ := segment_on a b rest x hs ha hhi
      refine ⟨_, ?_, hon⟩
      simp [distSp, e, absR_eq, huv.ne']

/-- the curve has one value at each place -/
theorem onLine_unique {pts : List (Rat × Rat)} {x y z : Rat}
    (hd : ∀ p ∈ pts, ∀ q ∈ pts, p.1 = q.1 → p = q) (hy : OnLine pts x y) (hz : OnLine pts x z) : y = z := by
  have aux : ∀ y z (a : Rat × Rat), a ∈ pts → ∀ b : Rat × Rat, b ∈ pts → ∀ c : Rat × Rat, c ∈ pts → ∀ d : Rat × Rat, d ∈ pts →
      a.1 < b.1 → a.1 ≤ x → x ≤ b.1 → (∀ p ∈ pts, p.1 ≤ a.1 ∨ b.1 ≤ p.1) →
      (y - a.2) * (b.1 - a.1) = (b.2 - a.2) * (x - a.1) →
      c.1 < d.1 → c.1 ≤ x → x ≤ d.1 → (∀ p ∈ pts, p.1 ≤ c.1 ∨ d.1 ≤ p.1) →
      (z - c.2) * (d.1 - c.1) = (d.2 - c.2) * (x - c.1) → a.1 ≤ c.1 → y = z := by
    intro y z a ha b hb c hc d hdm hab hax hxb hadj e1 hcd hcx hxd hadj' e2 hac
    rcases eq_or_lt_of_le hac with h | h
    · obtain rfl := hd a ha c hc h
      have hbd : b.1 = d.1 := by
        apply le_antisymm
        · rcases hadj d hdm with h' | h'
          · linarith
          · exact h'
        · rcases hadj' b hb with h' | h'
          · linarith
          · exact h'
      obtain rfl := hd b hb d hdm hbd
      have hne : b.1 - a.1 ≠ 0 := by linarith
      have : (y - a.2) * (b.1 - a.1) = (z - a.2) * (b.1 - a.1) := by rw [e1, e2]
      have := mul_right_cancel₀ hne this
      linarith
    · have hbc : b.1 ≤ c.1 := by
        rcases hadj c hc with h' | h'
        · linarith
        · exact h'
      have hxb' : x = b.1 := le_antisymm hxb (hbc.trans hcx)
      have hxc : x = c.1 := le_antisymm (hxb.trans hbc) hcx
      obtain rfl := hd b hb c hc (hxb'.symm.trans hxc)
      have hne : b.1 - a.1 ≠ 0 := by linarith
      have hne' : d.1 - b.1 ≠ 0 := by linarith
      rw [hxb'] at e1 e2
      have e1' := mul_right_cancel₀ hne e1
      rw [sub_self, mul_zero] at e2
      rcases mul_eq_zero.1 e2 with h' | h'
      · linarith
      · exact absurd h' hne'
  obtain ⟨a, ha, b, hb, hab, hax, hxb, hadj, e1⟩ := hy
  obtain ⟨c, hc, d, hdm, hcd, hcx, hxd, hadj', e2⟩ := hz
  rcases le_total a.1 c.1 with h | h
  · exact aux y z a ha b hb c hc d hdm hab hax hxb hadj e1 hcd hcx hxd hadj' e2 h
  · exact (aux z y c hc d hdm a ha b hb hcd hcx hxd hadj' e2 hab hax hxb hadj e1 h).symm

theorem onLine_perm {pts pts' : List (Rat × Rat)} (h : ∀ p, p ∈ pts ↔ p ∈ pts') {x y : Rat} :
    OnLine pts x y ↔ OnLine pts' x y := by
  unfold OnLine
  simp only [h]

/-! ### the search -/

theorem notAfter_total (a b : Dist) (h : ¬ notAfter a b = true) : notAfter b a = true := by
  cases a <;> cases b <;> simp_all [notAfter, le_of_lt]

theorem notAfter_trans {a b c : Dist} (h : notAfter a b = true) (h' : notAfter b c = true) : notAfter a c = true := by
  cases a <;> cases b <;> cases c <;> simp_all [notAfter]
  exact le_trans h h'

theorem notAfter_refl (a : Dist) : notAfter a a = true := by
  cases a <;> simp [notAfter]

theorem argmin_none {d : Rat → Dist} {xs : List Rat} : argmin d xs = none ↔ xs = [] := by
  cases xs with
  | nil => simp [argmin]
  | cons x xs =>
    simp only [argmin]
    split <;> simp

theorem argmin_some {d : Rat → Dist} : ∀ (xs : List Rat) (t : Rat), argmin d xs = some t →
    t ∈ xs ∧ ∀ y ∈ xs, notAfter (d t) (d y) = true
  | [], t, h => by cases h
  | x :: xs, t, h => by
    unfold argmin at h
    cases hm : argmin d xs with
    | none =>
      rw [hm] at h
      cases h
      rw [argmin_none] at hm
      subst hm
      refine ⟨by simp, fun y hy => ?_⟩
      rw [List.mem_singleton] at hy
      subst hy
      exact notAfter_refl _
    | some w =>
      rw [hm] at h
      obtain ⟨h1, h2⟩ := argmin_some xs w hm
      simp only [Option.some.injEq] at h
      subst h
      split_ifs with hl
      · refine ⟨List.mem_cons_self, fun y hy => ?_⟩
        rcases List.mem_cons.1 hy with rfl | hy
        · exact notAfter_refl _
        · exact notAfter_trans hl (h2 y hy)
      · refine ⟨List.mem_cons_of_mem _ h1, fun y hy => ?_⟩
        rcases List.mem_cons.1 hy with rfl | hy
        · exact notAfter_total _ _ hl
        · exact h2 y hy

theorem argmin_nan {d : Rat → Dist} {x : Rat} {xs : List Rat} (h : d x = .nan) : argmin d (x :: xs) = some x := by
  unfold argmin
  split
  · rfl
  · simp [h, notAfter]

theorem mem_linspace {a b x : Rat} : x ∈ Interp.linspace a b 1000 ↔ ∃ i, GridPoint a b i x := by
  unfold GridPoint
  rw [List.mem_iff_getElem?]
  constructor
  · rintro ⟨i, hi⟩
    have hlt : i < 1000 := by
      have := (List.getElem?_eq_some_iff.1 hi).1
      rwa [Interp.length_linspace] at this
    rw [Interp.getElem?_linspace a b 1000 (by omega) i hlt] at hi
    refine ⟨i, hlt, ?_⟩
    have := Option.some.inj hi
    rw [← this]
    push_cast
    ring
  · rintro ⟨i, hlt, e⟩
    refine ⟨i, ?_⟩
    rw [Interp.getElem?_linspace a b 1000 (by omega) i hlt]
    congr 1
    push_cast
    linarith

theorem minR_spec {l : List Rat} (h : l ≠ []) : minR l ∈ l ∧ ∀ v ∈ l, minR l ≤ v := by
  unfold minR
  cases hm : minN (l.map some) with
  | none =>
    rw [minN_none] at hm
    obtain ⟨v, hv⟩ := List.exists_mem_of_ne_nil _ h
    exact absurd ⟨v, List.mem_map.2 ⟨v, hv, rfl⟩⟩ hm
  | some m =>
    obtain ⟨h1, h2⟩ := minN_some _ _ hm
    obtain ⟨v, hv, e⟩ := List.mem_map.1 h1
    cases e
    exact ⟨hv, fun w hw => h2 w (List.mem_map.2 ⟨w, hw, rfl⟩)⟩

theorem maxR_spec {l : List Rat} (h : l ≠ []) : maxR l ∈ l ∧ ∀ v ∈ l, v ≤ maxR l := by
  unfold maxR
  cases hm : maxN (l.map some) with
  | none =>
    rw [maxN_none] at hm
    obtain ⟨v, hv⟩ := List.exists_mem_of_ne_nil _ h
    exact absurd ⟨v, List.mem_map.2 ⟨v, hv, rfl⟩⟩ hm
  | some m =>
    obtain ⟨h1, h2⟩ := maxN_some _ _ hm
    obtain ⟨v, hv, e⟩ := List.mem_map.1 h1
    cases e
    exact ⟨hv, fun w hw => h2 w (List.mem_map.2 ⟨w, hw, rfl⟩)⟩

theorem points_perm (df : List TRow) (ax : TRow → Rat) :
    (points df ax).Perm (df.map (fun r => (ax r, r.fraction))) := sortBy_perm _ _

theorem points_sorted (df : List TRow) (ax : TRow → Rat) : (points df ax).Pairwise (fun p q => p.1 ≤ q.1) := by
  unfold points
  refine (pairwise_sortBy (fun p q : Rat × Rat => decide (p.1 ≤ q.1)) ?_ ?_ _).imp (fun h => by simpa using h)
  · intro a b c h1 h2
    simp only [decide_eq_true_eq] at h1 h2 ⊢
    exact le_trans h1 h2
  · intro a b
    simpa using le_total a.1 b.1

theorem points_strict {df : List TRow} {ax : TRow → Rat} (hd : (df.map ax).Nodup) :
    (points df ax).Pairwise (fun p q => p.1 < q.1) := by
  have h1 := points_sorted df ax
  have h2 : (points df ax).Pairwise (fun p q => p.1 ≠ q.1) := by
    have : ((points df ax).map Prod.fst).Nodup := by
      refine ((points_perm df ax).map Prod.fst).nodup_iff.2 ?_
      simpa [List.map_map, Function.comp_def] using hd
    rw [List.nodup_iff_pairwise_ne, List.pairwise_map] at this
    exact this
  exact (h1.and h2).imp (fun h => lt_of_le_of_ne h.1 h.2)

/-- along an axis without ties the search finds the closest place -/
theorem crossed_closest (np : Bool) (thr : Rat) (df : List TRow) (ax : TRow → Rat) (h2 : 2 ≤ df.length)
    (hd : (df.map ax).Nodup) :
    ∃ t, crossed np thr df ax = some t ∧ Closest (df.map (fun r => (ax r, r.fraction))) thr t := by
  have hne : df.map ax ≠ [] := by
    intro h
    rw [List.map_eq_nil_iff] at h
    subst h
    simp at h2
  obtain ⟨hlo, hlo'⟩ := minR_spec hne
  obtain ⟨hhi, hhi'⟩ := maxR_spec hne
  obtain ⟨rl, hrl, el⟩ := List.mem_map.1 hlo
  obtain ⟨rh, hrh, eh⟩ := List.mem_map.1 hhi
  have hmem : ∀ p, p ∈ points df ax ↔ p ∈ df.map (fun r => (ax r, r.fraction)) := fun p => (points_perm df ax).mem_iff
  have hdist : ∀ x, minR (df.map ax) ≤ x → x ≤ maxR (df.map ax) →
      ∃ y, (if np then distNp (points df ax) thr else distSp (points df ax) thr) x = .val |y - thr| ∧
        OnLine (df.map (fun r => (ax r, r.fraction))) x y := by
    intro x hx1 hx2
    obtain ⟨y, e, hon⟩ := dist_on np (pts := points df ax) (x := x) (thr := thr)
      (by rw [(points_perm df ax).length_eq, List.length_map]; exact h2) (points_strict hd)
      ⟨(ax rl, rl.fraction), (hmem _).2 (List.mem_map.2 ⟨rl, hrl, rfl⟩), by simpa [el] using hx1⟩
      ⟨(ax rh, rh.fraction), (hmem _).2 (List.mem_map.2 ⟨rh, hrh, rfl⟩), by simpa [eh] using hx2⟩
    exact ⟨y, e, (onLine_perm hmem).1 hon⟩
  have hle : minR (df.map ax) ≤ maxR (df.map ax) := hlo' _ hhi
  have hgrid : ∀ i x, GridPoint (minR (df.map ax)) (maxR (df.map ax)) i x →
      minR (df.map ax) ≤ x ∧ x ≤ maxR (df.map ax) := by
    rintro i x ⟨hi, e⟩
    have hi' : (i : Rat) ≤ 999 := by
      have : i ≤ 999 := by omega
      exact_mod_cast this
    have h0 : (0 : Rat) ≤ i := Nat.cast_nonneg i
    have hdl : 0 ≤ maxR (df.map ax) - minR (df.map ax) := by linarith
    have p1 := mul_nonneg h0 hdl
    have p2 := mul_le_mul_of_nonneg_right hi' hdl
    constructor <;> linarith
  cases hc : crossed np thr df ax with
  | none =>
    unfold crossed at hc
    rw [argmin_none] at hc
    have := congrArg List.length hc
    rw [Interp.length_linspace] at this
    simp at this
  | some t =>
    refine ⟨t, rfl, ?_⟩
    unfold crossed at hc
    obtain ⟨ht, hbest⟩ := argmin_some _ _ hc
    obtain ⟨i, hi⟩ := mem_linspace.1 ht
    obtain ⟨b1, b2⟩ := hgrid i t hi
    obtain ⟨y, e, hon⟩ := hdist t b1 b2
    refine ⟨minR (df.map ax), maxR (df.map ax), i, y, ⟨_, List.mem_map.2 ⟨rl, hrl, rfl⟩, el⟩,
      ⟨_, List.mem_map.2 ⟨rh, hrh, rfl⟩, eh⟩, ?_, hi, hon, ?_⟩
    · intro p hp
      obtain ⟨r, hr, rfl⟩ := List.mem_map.1 hp
      exact ⟨hlo' _ (List.mem_map.2 ⟨r, hr, rfl⟩), hhi' _ (List.mem_map.2 ⟨r, hr, rfl⟩)⟩
    · intro j u z hj hz
      obtain ⟨c1, c2⟩ := hgrid j u hj
      obtain ⟨y', e', hon'⟩ := hdist u c1 c2
      have huniq : y' = z := by
        refine onLine_unique ?_ hon' hz
        intro p hp q hq hpq
        have hs := points_strict hd
        have hp' := (hmem p).2 hp
        have hq' := (hmem q).2 hq
        by_contra hne
        rcases List.pairwise_iff_getElem.1 hs with hs'
        obtain ⟨i, hi, rfl⟩ := List.mem_iff_getElem.1 hp'
        obtain ⟨j, hj, rfl⟩ := List.mem_iff_getElem.1 hq'
        rcases lt_trichotomy i j with h | h | h
        · have := hs' i j hi hj h
          linarith
        · subst h
          exact hne rfl
        · have := hs' j i hj hi h
          linarith
      have := hbest u (mem_linspace.2 ⟨j, hj⟩)
      rw [e, e', huniq] at this
      simpa [notAfter] using this

/-! ### ties at the smallest place -/

/-- if two rows share the smallest place, extrapolation reports that place -/
theorem extrapolated_tie (thr : Rat) (df : List TRow) (ax : TRow → Rat) (r1 r2 : TRow) (m : Rat)
    (hmin : ∀ r ∈ df, m ≤ ax r) (hmem : ∃ r ∈ df, ax r = m) (h2 : 2 ≤ (df.map ax).count m) :
    extrapolated thr df ax r1 r2 = none ∨ extrapolated thr df ax r1 r2 = some m := by
  unfold extrapolated
  split_ifs with he
  · exact .inl rfl
  · right
    have hmR : minR (df.map ax) = m := by
      obtain ⟨r, hr, e⟩ := hmem
      have hne : df.map ax ≠ [] := by
        intro h
        rw [List.map_eq_nil_iff] at h
        subst h
        cases hr
      obtain ⟨h1, h2⟩ := minR_spec hne
      obtain ⟨s, hs, es⟩ := List.mem_map.1 h1
      apply le_antisymm
      · exact e ▸ h2 _ (List.mem_map.2 ⟨r, hr, rfl⟩)
      · rw [← es]
        exact hmin s hs
    have hc : 2 ≤ ((points df ax).map Prod.fst).count m := by
      rw [((points_perm df ax).map Prod.fst).count_eq]
      simpa [List.map_map, Function.comp_def] using h2
    have hall : ∀ p ∈ points df ax, m ≤ p.1 := by
      intro p hp
      obtain ⟨r, hr, rfl⟩ := List.mem_map.1 ((points_perm df ax).mem_iff.1 hp)
      exact hmin r hr
    have hsorted := points_sorted df ax
    have hd : distSp (points df ax) thr m = .nan := by
      match hp : points df ax with
      | [] => rw [hp] at hc; simp at hc
      | [_] =>
        rw [hp] at hc
        have := List.count_le_length (a := m) (l := List.map Prod.fst [‹Rat × Rat›])
        simp at this
        simp at hc
        omega
      | a :: b :: rest =>
        rw [hp] at hc hall hsorted
        have ha := hall a (by simp)
        have hs := List.pairwise_cons.1 hsorted
        have hs2 := List.pairwise_cons.1 hs.2
        have hb : b.1 = m := by
          by_contra hb
          have hb' : m < b.1 := lt_of_le_of_ne (hall b (by simp)) (Ne.symm hb)
          have : (List.map Prod.fst (b :: rest)).count m = 0 := by
            rw [List.count_eq_zero]
            intro h
            obtain ⟨p, hp, e⟩ := List.mem_map.1 h
            rcases List.mem_cons.1 hp with rfl | hp
            · linarith
            · have := hs2.1 p hp
              linarith
          rw [List.map_cons, List.count_cons, this] at hc
          split_ifs at hc
          · omega
          · omega
        have ha' : a.1 = m := le_antisymm (hb ▸ hs.1 b (by simp)) ha
        have hseg : segment (a :: b :: rest) m = some (a, b) := by
          cases rest with
          | nil => rfl
          | cons c rest => simp [segment, hb]
        unfold distSp
        rw [hseg]
        simp [ha', hb]
    rw [hmR]
    have hlin : ∀ e, ∃ xs, Interp.linspace m e 1000 = m :: xs := by
      intro e
      have h0 := Interp.getElem?_linspace m e 1000 (by omega) 0 (by omega)
      cases hl : Interp.linspace m e 1000 with
      | nil => rw [hl] at h0; simp at h0
      | cons x xs =>
        rw [hl] at h0
        simp at h0
        exact ⟨xs, by rw [h0]⟩
    obtain ⟨xs, hxs⟩ := hlin ((thr - 1 / 10 - r1.fraction) * (ax r2 - ax r1) / (r2.fraction - r1.fraction) + ax r1)
    simp only
    rw [hxs]
    exact argmin_nan hd

/-! ### kinks -/

theorem triple_cons {a b c x y z : TRow} {rest : List TRow} :
    Triple (a :: b :: c :: rest) x y z ↔ (x = a ∧ y = b ∧ z = c) ∨ Triple (b :: c :: rest) x y z := by
  constructor
  · rintro ⟨pre, post, e⟩
    cases pre with
    | nil =>
      simp only [List.nil_append, List.cons.injEq] at e
      exact .inl ⟨e.1.symm, e.2.1.symm, e.2.2.1.symm⟩
    | cons p pre =>
      simp only [List.cons_append, List.cons.injEq] at e
      exact .inr ⟨pre, post, e.2⟩
  · rintro (⟨rfl, rfl, rfl⟩ | ⟨pre, post, e⟩)
    · exact ⟨[], rest, rfl⟩
    · exact ⟨a :: pre, post, by rw [e]; rfl⟩

theorem zip_second (r : TRow) (e : Rat) : ∀ (rest : List TRow) (a b : TRow),
    (r, some e) ∈ rest.zip (diffFrom (some (b.fraction - a.fraction))
      (diffFrom (some b.fraction) (rest.map (fun r => some r.fraction)))) ↔
    ∃ x y, Triple (a :: b :: rest) x y r ∧ e = bend x y r
  | [], a, b => by
    simp only [List.zip_nil_left, List.not_mem_nil, false_iff]
    rintro ⟨x, y, ⟨pre, post, h⟩, -⟩
    have := congrArg List.length h
    simp at this
    omega
  | c :: rest, a, b => by
    simp only [List.map_cons, diffFrom, subN, List.zip_cons_cons, List.mem_cons, Prod.mk.injEq,
      Option.some.injEq, zip_second r e rest b c]
    constructor
    · rintro (⟨rfl, rfl⟩ | ⟨x, y, h, he⟩)
      · exact ⟨a, b, triple_cons.2 (.inl ⟨rfl, rfl, rfl⟩), rfl⟩
      · exact ⟨x, y, triple_cons.2 (.inr h), he⟩
    · rintro ⟨x, y, h, he⟩
      rcases triple_cons.1 h with ⟨rfl, rfl, rfl⟩ | h
      · exact .inl ⟨rfl, he⟩
      · exact .inr ⟨x, y, h, he⟩

theorem mem_second (r : TRow) (e : Rat) (df : List TRow) :
    (r, some e) ∈ df.zip (secondDiff df) ↔ ∃ x y, Triple df x y r ∧ e = bend x y r := by
  match df with
  | [] =>
    simp only [secondDiff, List.zip_nil_left, List.not_mem_nil, false_iff]
    rintro ⟨x, y, ⟨pre, post, h⟩, -⟩
    simp at h
  | [a] =>
    simp only [secondDiff, List.map_cons, List.map_nil, diff, diffFrom, List.zip_cons_cons, List.zip_nil_left,
      List.mem_singleton, Prod.mk.injEq, reduceCtorEq, and_false, false_iff]
    rintro ⟨x, y, ⟨pre, post, h⟩, -⟩
    have := congrArg List.length h
    simp at this
    omega
  | a :: b :: rest =>
    rw [← zip_second r e rest a b]
    simp [secondDiff, diff, diffFrom, subN]

theorem mem_kinks {k : Rat} {df : List TRow} {c : Int} :
    c ∈ kinks k df ↔ ∃ x y z, Triple df x y z ∧ bend x y z < k ∧ z.cycle = c := by
  unfold kinks
  rw [List.mem_map]
  constructor
  · rintro ⟨⟨r, o⟩, h, rfl⟩
    rw [List.mem_filter] at h
    cases o with
    | none => simp at h
    | some e =>
      obtain ⟨x, y, ht, he⟩ := (mem_second r e df).1 h.1
      exact ⟨x, y, r, ht, he ▸ by simpa using h.2, rfl⟩
  · rintro ⟨x, y, z, ht, hb, rfl⟩
    refine ⟨(z, some (bend x y z)), List.mem_filter.2 ⟨(mem_second _ _ _).2 ⟨x, y, ht, rfl⟩, ?_⟩, rfl⟩
    simpa using hb

end Beep.Proof.Threshold
