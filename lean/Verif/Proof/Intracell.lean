import Verif.Proof.Interp
import Verif.Proof.Hppc
import Verif.Model.Intracell
import Verif.Spec.Intracell
/-
Helper lemmas for Props/Intracell.
-/
namespace Beep.Intracell
open Beep Pandas Beep.Spec.Intracell
open Beep.Interp (linspace length_linspace getElem?_linspace)

/-! ### interpolation -/

theorem line_between (x0 : Rat) (y0 : Option Rat) (x1 : Rat) (y1 : Option Rat) (x : Rat) :
    Between (x0, y0) (x1, y1) x (line x0 y0 x1 y1 x) := by
  unfold Between line
  cases y0 with
  | none => exact Or.inr ⟨Or.inl rfl, rfl⟩
  | some a => cases y1 with
    | none => exact Or.inr ⟨Or.inr rfl, rfl⟩
    | some b => exact Or.inl ⟨a, b, rfl, rfl, by simp only [mul_div_assoc]⟩

theorem interpSorted_onCurve (c : Curve) (hs : c.Pairwise (fun p q => p.1 < q.1)) (x : Rat) :
    OnCurve c x (interpSorted c x) := by
  induction c with
  | nil => exact Or.inr (Or.inr ⟨Or.inl (by simp), rfl⟩)
  | cons a rest ih =>
    obtain ⟨x0, y0⟩ := a
    have hs' := List.pairwise_cons.1 hs
    cases rest with
    | nil =>
      unfold interpSorted
      by_cases h : x = x0
      · rw [if_pos h, h]; exact Or.inl (by simp)
      · rw [if_neg h]
        refine Or.inr (Or.inr ⟨?_, rfl⟩)
        rcases lt_or_gt_of_ne h with h | h
        · exact Or.inl (by simpa using h)
        · exact Or.inr (by simpa using h)
    | cons b rest =>
      obtain ⟨x1, y1⟩ := b
      have h01 : x0 < x1 := hs'.1 (x1, y1) (by simp)
      have ht := List.pairwise_cons.1 hs'.2
      unfold interpSorted
      by_cases h : x < x0
      · rw [if_pos h]
        refine Or.inr (Or.inr ⟨Or.inl ?_, rfl⟩)
        intro r hr
        rcases List.mem_cons.1 hr with h' | h'
        · rw [h']; exact h
        · exact lt_trans h (hs'.1 r h')
      rw [if_neg h]
      by_cases he : x = x0
      · rw [if_pos he, he]; exact Or.inl (by simp)
      rw [if_neg he]
      have hgt : x0 < x := lt_of_le_of_ne (not_lt.1 h) (Ne.symm he)
      by_cases h1 : x < x1
      · rw [if_pos h1]
        refine Or.inr (Or.inl ⟨(x0, y0), by simp, (x1, y1), by simp, hgt, h1, ?_, line_between ..⟩)
        intro r hr
        rcases List.mem_cons.1 hr with h' | h'
        · exact Or.inl (by rw [h'])
        · rcases List.mem_cons.1 h' with h'' | h''
          · exact Or.inr (by rw [h''])
          · exact Or.inr (le_of_lt (ht.1 r h''))
      · rw [if_neg h1]
        rcases ih hs'.2 with h2 | ⟨p, hp, q, hq, hpx, hxq, hno, hb⟩ | ⟨h2, h3⟩
        · exact Or.inl (List.mem_cons_of_mem _ h2)
        · refine Or.inr (Or.inl ⟨p, List.mem_cons_of_mem _ hp, q, List.mem_cons_of_mem _ hq, hpx, hxq, ?_, hb⟩)
          intro r hr
          rcases List.mem_cons.1 hr with h' | h'
          · exact Or.inl (by rw [h']; exact le_of_lt (hs'.1 p hp))
          · exact hno r h'
        · refine Or.inr (Or.inr ⟨?_, h3⟩)
          rcases h2 with h2 | h2
          · exact absurd (h2 (x1, y1) (by simp)) h1
          · refine Or.inr ?_
            intro r hr
            rcases List.mem_cons.1 hr with h' | h'
            · rw [h']; exact hgt
            · exact h2 r h'

theorem sorted_perm (c : Curve) : (sorted c).Perm c := sortBy_perm _ _

theorem sorted_strict (c : Curve) (hd : Distinct c) : (sorted c).Pairwise (fun p q => p.1 < q.1) := by
  have h1 : (sorted c).Pairwise (fun p q => decide (p.1 ≤ q.1) = true) :=
    pairwise_sortBy _ (by intro a b c; simp only [decide_eq_true_eq]; exact le_trans)
      (by intro a b; simp only [Bool.or_eq_true, decide_eq_true_eq]; exact le_total _ _) _
  have h2 : ((sorted c).map Prod.fst).Nodup := ((sorted_perm c).map Prod.fst).nodup_iff.2 hd
  have h3 : (sorted c).Pairwise (fun p q => p.1 ≠ q.1) := List.pairwise_map.1 h2
  exact (h1.and h3).imp (fun h => lt_of_le_of_ne (by simpa using h.1) h.2)

theorem onCurve_mem_iff {c d : Curve} (h : ∀ p, p ∈ c ↔ p ∈ d) (x : Rat) (v : Option Rat) :
    OnCurve c x v → OnCurve d x v := by
  rintro (h1 | ⟨p, hp, q, hq, hpx, hxq, hno, hb⟩ | ⟨h1, h2⟩)
  · exact Or.inl ((h _).1 h1)
  · exact Or.inr (Or.inl ⟨p, (h p).1 hp, q, (h q).1 hq, hpx, hxq, fun r hr => hno r ((h r).2 hr), hb⟩)
  · refine Or.inr (Or.inr ⟨?_, h2⟩)
    rcases h1 with h1 | h1
    · exact Or.inl (fun r hr => h1 r ((h r).2 hr))
    · exact Or.inr (fun r hr => h1 r ((h r).2 hr))

theorem interp_onCurve (c : Curve) (hd : Distinct c) (x : Rat) : OnCurve c x (interp c x) :=
  onCurve_mem_iff (fun _ => (sorted_perm c).mem_iff) x _ (interpSorted_onCurve _ (sorted_strict c hd) x)

theorem distinct_inj {c : Curve} (hd : Distinct c) {p q : Rat × Option Rat} (hp : p ∈ c) (hq : q ∈ c)
    (h : p.1 = q.1) : p = q := by
  unfold Distinct at hd
  exact List.inj_on_of_nodup_map hd hp hq h

/-- the value of a curve is determined -/
theorem onCurve_unique {c : Curve} (hd : Distinct c) (hne : c ≠ []) {x : Rat} {v w : Option Rat} (hv : OnCurve c x v)
    (hw : OnCurve c x w) : v = w := by
  obtain ⟨z, hz⟩ := List.exists_mem_of_ne_nil _ hne
  have out : ∀ {y : Option Rat}, ((∀ r ∈ c, x < r.1) ∨ (∀ r ∈ c, r.1 < x)) → y ≠ none → ¬ OnCurve c x y := by
    intro y hout hy h
    rcases h with h | ⟨p, hp, q, hq, hpx, hxq, _, _⟩ | ⟨_, h⟩
    · rcases hout with ho | ho <;> exact lt_irrefl _ (ho _ h)
    · rcases hout with ho | ho
      · exact absurd (ho p hp) (not_lt.2 (le_of_lt hpx))
      · exact absurd (ho q hq) (not_lt.2 (le_of_lt hxq))
    · exact hy h
  have outEq : ∀ {y : Option Rat}, ((∀ r ∈ c, x < r.1) ∨ (∀ r ∈ c, r.1 < x)) → OnCurve c x y → y = none := by
    intro y hout h
    by_contra hy
    exact out hout hy h
  rcases hv with hv | ⟨p, hp, q, hq, hpx, hxq, hno, hb⟩ | ⟨hv, hv'⟩
  · rcases hw with hw | ⟨p, hp, q, hq, hpx, hxq, hno, hb⟩ | ⟨hw, hw'⟩
    · have := distinct_inj hd hv hw rfl
      exact (Prod.mk.inj this).2
    · rcases hno _ hv with h | h
      · exact absurd hpx (not_lt.2 h)
      · exact absurd hxq (not_lt.2 h)
    · rw [hw']; exact outEq hw (Or.inl hv)
  · rcases hw with hw | ⟨p', hp', q', hq', hpx', hxq', hno', hb'⟩ | ⟨hw, hw'⟩
    · rcases hno _ hw with h | h
      · exact absurd hpx (not_lt.2 h)
      · exact absurd hxq (not_lt.2 h)
    · have e1 : p = p' := by
        apply distinct_inj hd hp hp'
        rcases hno p' hp' with h | h
        · rcases hno' p hp with h' | h'
          · exact le_antisymm h' h
          · linarith
        · linarith
      have e2 : q = q' := by
        apply distinct_inj hd hq hq'
        rcases hno q' hq' with h | h
        · linarith
        · rcases hno' q hq with h' | h'
          · linarith
          · exact le_antisymm h h'
      subst e1; subst e2
      rcases hb with ⟨a, b, ha, hb1, hb2⟩ | ⟨ho, hn⟩
      · rcases hb' with ⟨a', b', ha', hb1', hb2'⟩ | ⟨ho', hn'⟩
        · rw [ha] at ha'; rw [hb1] at hb1'
          cases ha'; cases hb1'
          rw [hb2, hb2']
        · rcases ho' with h | h
          · rw [ha] at h; cases h
          · rw [hb1] at h; cases h
      · rcases hb' with ⟨a', b', ha', hb1', hb2'⟩ | ⟨ho', hn'⟩
        · rcases ho with h | h
          · rw [ha'] at h; cases h
          · rw [hb1'] at h; cases h
        · rw [hn, hn']
    · rw [hw']; exact outEq hw (Or.inr (Or.inl ⟨p, hp, q, hq, hpx, hxq, hno, hb⟩))
  · rw [hv']; exact (outEq hv hw).symm

theorem interp_iff (c : Curve) (hd : Distinct c) (hne : c ≠ []) (x : Rat) (v : Option Rat) :
    interp c x = v ↔ OnCurve c x v :=
  ⟨fun h => h ▸ interp_onCurve c hd x, fun h => onCurve_unique hd hne (interp_onCurve c hd x) h⟩

/-- stretching and moving the places of a curve -/
theorem onCurve_affine {c : Curve} {a b : Rat} (ha : 0 < a) {x : Rat} {v : Option Rat} :
    OnCurve (affine a b c) x v → OnCurve c ((x - b) / a) v := by
  have lt1 : ∀ y : Rat, y * a + b < x ↔ y < (x - b) / a := by
    intro y; rw [lt_div_iff₀ ha]; constructor <;> intro h <;> linarith
  have lt2 : ∀ y : Rat, x < y * a + b ↔ (x - b) / a < y := by
    intro y; rw [div_lt_iff₀ ha]; constructor <;> intro h <;> linarith
  unfold affine
  rintro (h | ⟨p, hp, q, hq, hpx, hxq, hno, hb⟩ | ⟨h1, h2⟩)
  · obtain ⟨p, hp, he⟩ := List.mem_map.1 h
    have e := Prod.mk.inj he
    refine Or.inl ?_
    have : (x - b) / a = p.1 := by rw [← e.1]; field_simp; ring
    rw [this, ← e.2]
    exact hp
  · obtain ⟨p0, hp0, rfl⟩ := List.mem_map.1 hp
    obtain ⟨q0, hq0, rfl⟩ := List.mem_map.1 hq
    simp only at hpx hxq
    have hpx' := (lt1 _).1 hpx
    have hxq' := (lt2 _).1 hxq
    refine Or.inr (Or.inl ⟨p0, hp0, q0, hq0, hpx', hxq', ?_, ?_⟩)
    · intro r hr
      have := hno _ (List.mem_map.2 ⟨r, hr, rfl⟩)
      simp only at this
      rcases this with h | h
      · exact Or.inl (le_of_mul_le_mul_right (by linarith) ha)
      · exact Or.inr (le_of_mul_le_mul_right (by linarith) ha)
    · rcases hb with ⟨u, w, hu, hw, hv⟩ | h
      · refine Or.inl ⟨u, w, hu, hw, ?_⟩
        rw [hv]
        simp only
        have hd : q0.1 - p0.1 ≠ 0 := ne_of_gt (by linarith)
        have hd' : q0.1 * a + b - (p0.1 * a + b) ≠ 0 := by
          have : q0.1 * a + b - (p0.1 * a + b) = (q0.1 - p0.1) * a := by ring
          rw [this]; exact mul_ne_zero hd (ne_of_gt ha)
        congr 1
        have ha' := ne_of_gt ha
        have e2 : q0.1 * a + b - (p0.1 * a + b) = (q0.1 - p0.1) * a := by ring
        rw [e2]
        have e3 : (x - b) / a - p0.1 = (x - (p0.1 * a + b)) / a := by field_simp; ring
        rw [e3]
        field_simp
      · exact Or.inr h
  · refine Or.inr (Or.inr ⟨?_, h2⟩)
    rcases h1 with h1 | h1
    · exact Or.inl (fun r hr => (lt2 _).1 (h1 _ (List.mem_map.2 ⟨r, hr, rfl⟩)))
    · exact Or.inr (fun r hr => (lt1 _).1 (h1 _ (List.mem_map.2 ⟨r, hr, rfl⟩)))

theorem affine_distinct {c : Curve} {a b : Rat} (ha : 0 < a) (hd : Distinct c) : Distinct (affine a b c) := by
  unfold Distinct affine at *
  rw [List.map_map]
  have : (Prod.fst ∘ fun p : Rat × Option Rat => (p.1 * a + b, p.2)) = (fun y => y * a + b) ∘ Prod.fst := rfl
  rw [this, ← List.map_map]
  exact hd.map (fun y z h => by
    have h : y * a + b = z * a + b := h
    exact mul_right_cancel₀ (ne_of_gt ha) (by linarith))

/-! ### extent, grid -/

theorem range_iff (c : Curve) (a b : Rat) : range c = some (a, b) ↔ Extent c a b := by
  unfold range Extent
  cases h1 : minN (c.map (fun p => some p.1)) with
  | none =>
    rw [minN_none] at h1
    refine ⟨fun h => by simp at h, fun ⟨⟨p, hp, _⟩, _⟩ => absurd ⟨p.1, List.mem_map.2 ⟨p, hp, rfl⟩⟩ h1⟩
  | some m => cases h2 : maxN (c.map (fun p => some p.1)) with
    | none =>
      rw [maxN_none] at h2
      refine ⟨fun h => by simp at h, fun ⟨⟨p, hp, _⟩, _⟩ => absurd ⟨p.1, List.mem_map.2 ⟨p, hp, rfl⟩⟩ h2⟩
    | some M =>
      obtain ⟨m1, m2⟩ := minN_some _ _ h1
      obtain ⟨M1, M2⟩ := maxN_some _ _ h2
      obtain ⟨p, hp, he⟩ := List.mem_map.1 m1
      obtain ⟨q, hq, hf⟩ := List.mem_map.1 M1
      have le1 : ∀ r ∈ c, m ≤ r.1 := fun r hr => m2 _ (List.mem_map.2 ⟨r, hr, rfl⟩)
      have le2 : ∀ r ∈ c, r.1 ≤ M := fun r hr => M2 _ (List.mem_map.2 ⟨r, hr, rfl⟩)
      simp only [Option.some.injEq, Prod.mk.injEq]
      constructor
      · rintro ⟨rfl, rfl⟩
        exact ⟨⟨p, hp, Option.some.inj he⟩, ⟨q, hq, Option.some.inj hf⟩, fun r hr => ⟨le1 r hr, le2 r hr⟩⟩
      · rintro ⟨⟨p', hp', hea⟩, ⟨q', hq', heb⟩, hall⟩
        have e1 := Option.some.inj he
        have e2 := Option.some.inj hf
        refine ⟨le_antisymm (hea ▸ le1 p' hp') (e1 ▸ (hall p hp).1), le_antisymm (e2 ▸ (hall q hq).2) (heb ▸ le2 q' hq')⟩

theorem range_none (c : Curve) : range c = none ↔ c = [] := by
  constructor
  · intro h
    cases c with
    | nil => rfl
    | cons p c =>
      exfalso
      unfold range at h
      cases h1 : minN ((p :: c).map (fun p => some p.1)) with
      | none => rw [minN_none] at h1; exact h1 ⟨p.1, by simp⟩
      | some m => cases h2 : maxN ((p :: c).map (fun p => some p.1)) with
        | none => rw [maxN_none] at h2; exact h2 ⟨p.1, by simp⟩
        | some M => rw [h1, h2] at h; cases h
  · rintro rfl; rfl

theorem even_linspace (a b : Rat) : Even (linspace a b 1001) a b := by
  refine ⟨length_linspace .., fun k hk => ?_⟩
  rw [getElem?_linspace a b 1001 (by omega) k hk]
  congr 2
  rw [mul_div_assoc]
  norm_num

/-! ### positions -/

theorem argminN_some (vs : List (Option Rat)) (k : Nat) :
    argminN vs = some k ↔ ∃ m, vs[k]? = some (some m) ∧
      ∀ (j : Nat) (w : Rat), vs[j]? = some (some w) → m ≤ w ∧ (j < k → m < w) := by
  unfold argminN
  cases h : minN vs with
  | none =>
    rw [minN_none] at h
    constructor
    · intro h'; cases h'
    · rintro ⟨m, hm, _⟩; exact absurd ⟨m, List.mem_of_getElem? hm⟩ h
  | some m =>
    obtain ⟨h1, h2⟩ := minN_some _ _ h
    simp only
    rw [List.findIdx?_eq_some_iff_getElem]
    constructor
    · rintro ⟨hk, he, hno⟩
      simp only [decide_eq_true_eq] at he
      refine ⟨m, by rw [List.getElem?_eq_getElem hk, he], ?_⟩
      intro j w hj
      have hle := h2 w (List.mem_of_getElem? hj)
      refine ⟨hle, fun hjk => lt_of_le_of_ne hle ?_⟩
      intro e
      have := hno j hjk
      simp only [decide_eq_true_eq] at this
      obtain ⟨hj', hj''⟩ := List.getElem?_eq_some_iff.1 hj
      rw [hj'', e] at this
      exact this rfl
    · rintro ⟨m', hm', hall⟩
      have e : m' = m := by
        obtain ⟨j, hj⟩ := List.getElem?_of_mem h1
        exact le_antisymm (hall j m hj).1 (h2 m' (List.mem_of_getElem? hm'))
      subst e
      obtain ⟨hk, hk'⟩ := List.getElem?_eq_some_iff.1 hm'
      refine ⟨hk, by simpa using hk', ?_⟩
      intro j hj
      simp only [decide_eq_true_eq]
      intro hc
      have hj' : j < vs.length := lt_trans hj hk
      have := (hall j m' (by rw [List.getElem?_eq_getElem hj', hc])).2 hj
      exact lt_irrefl _ this

theorem argminN_none (vs : List (Option Rat)) : argminN vs = none ↔ ¬ ∃ v, some v ∈ vs := by
  unfold argminN
  cases h : minN vs with
  | none => exact ⟨fun _ => (minN_none vs).1 h, fun _ => rfl⟩
  | some m =>
    have h1 := (minN_some _ _ h).1
    simp only [List.findIdx?_eq_none_iff]
    constructor
    · intro hn; have := hn _ h1; simp at this
    · intro hn; exact absurd ⟨m, h1⟩ hn

/-- rows of the full cell -/
theorem fullCell_getElem? (pe ne : Curve) (hax : pe.map Prod.fst = ne.map Prod.fst) (k : Nat) (x : Rat) (v : Option Rat) :
    (fullCell pe ne)[k]? = some (x, v) ↔
      ∃ p n, pe[k]? = some (x, p) ∧ ne[k]? = some (x, n) ∧ v = subN p n := by
  unfold fullCell
  rw [List.getElem?_zipWith]
  have hk : (pe[k]?).map Prod.fst = (ne[k]?).map Prod.fst := by
    rw [← List.getElem?_map, ← List.getElem?_map, hax]
  cases hp : pe[k]? with
  | none => simp
  | some p => cases hn : ne[k]? with
    | none => simp
    | some n =>
      rw [hp, hn] at hk
      simp only [Option.map_some, Option.some.injEq] at hk
      obtain ⟨px, pv⟩ := p
      obtain ⟨nx, nv⟩ := n
      simp only at hk
      subst hk
      simp only [Option.some.injEq, Prod.mk.injEq]
      constructor
      · rintro ⟨rfl, rfl⟩; exact ⟨pv, nv, ⟨rfl, rfl⟩, ⟨rfl, rfl⟩, rfl⟩
      · rintro ⟨p, n, ⟨rfl, rfl⟩, ⟨_, rfl⟩, rfl⟩; exact ⟨rfl, rfl⟩

theorem subN_some {a b : Option Rat} {v : Rat} : subN a b = some v ↔ ∃ p n, a = some p ∧ b = some n ∧ v = p - n := by
  cases a <;> cases b <;> simp [subN, eq_comm]

theorem full_value (pe ne : Curve) (hax : pe.map Prod.fst = ne.map Prod.fst) (k : Nat) (w : Rat) :
    ((fullCell pe ne).map Prod.snd)[k]? = some (some w) ↔ ∃ x p n, RowAt pe ne k x p n ∧ w = p - n := by
  rw [List.getElem?_map]
  constructor
  · intro h
    obtain ⟨⟨x, v⟩, hxv, he⟩ := Option.map_eq_some_iff.1 h
    simp only at he
    subst he
    obtain ⟨p, n, hp, hn, hv⟩ := (fullCell_getElem? pe ne hax k x _).1 hxv
    obtain ⟨a, b, rfl, rfl, rfl⟩ := subN_some.1 hv.symm
    exact ⟨x, a, b, ⟨hp, hn⟩, rfl⟩
  · rintro ⟨x, p, n, ⟨hp, hn⟩, rfl⟩
    rw [(fullCell_getElem? pe ne hax k x (some (p - n))).2 ⟨some p, some n, hp, hn, rfl⟩]
    rfl

theorem dist_some {v : Rat} {w : Option Rat} {d : Rat} : dist v w = some d ↔ ∃ x, w = some x ∧ d = off v x := by
  unfold dist off absR
  cases w <;> simp [eq_comm]

theorem nearest_iff (pe ne : Curve) (hax : pe.map Prod.fst = ne.map Prod.fst) (v : Rat) (k : Nat) :
    nearest v ((fullCell pe ne).map Prod.snd) = some k ↔ Nearest pe ne v k := by
  unfold nearest
  rw [argminN_some]
  have key : ∀ (j : Nat) (d : Rat), (((fullCell pe ne).map Prod.snd).map (dist v))[j]? = some (some d) ↔
      ∃ x p n, RowAt pe ne j x p n ∧ d = off v (p - n) := by
    intro j d
    rw [List.getElem?_map]
    constructor
    · intro h
      obtain ⟨w, hw, he⟩ := Option.map_eq_some_iff.1 h
      obtain ⟨y, rfl, rfl⟩ := dist_some.1 he
      obtain ⟨x, p, n, hr, rfl⟩ := (full_value pe ne hax j y).1 hw
      exact ⟨x, p, n, hr, rfl⟩
    · rintro ⟨x, p, n, hr, rfl⟩
      rw [(full_value pe ne hax j (p - n)).2 ⟨x, p, n, hr, rfl⟩]
      exact congrArg some (dist_some.2 ⟨_, rfl, rfl⟩)
  constructor
  · rintro ⟨m, hm, hall⟩
    obtain ⟨x, p, n, hr, rfl⟩ := (key k m).1 hm
    exact ⟨x, p, n, hr, fun j y q m' hr' => hall j _ ((key j _).2 ⟨y, q, m', hr', rfl⟩)⟩
  · rintro ⟨x, p, n, hr, hall⟩
    refine ⟨_, (key k _).2 ⟨x, p, n, hr, rfl⟩, ?_⟩
    intro j w hj
    obtain ⟨y, q, m, hr', rfl⟩ := (key j w).1 hj
    exact hall j y q m hr'

theorem present_mem {c : Curve} {p : Rat × Option Rat} : p ∈ present c ↔ p ∈ c ∧ p.2 ≠ none := by
  unfold present
  rw [List.mem_filter]
  cases p.2 <;> simp

/-! ### extended curves -/

theorem extrap_ext (pts : List (Rat × Rat)) (hs : pts.Pairwise (fun p q => p.1 < q.1)) (hl : 2 ≤ pts.length) (x : Rat) :
    ∃ p ∈ pts, ∃ q ∈ pts, p.1 < q.1 ∧ (∀ r ∈ pts, r.1 ≤ p.1 ∨ q.1 ≤ r.1) ∧
      (p.1 ≤ x ∨ ∀ r ∈ pts, p.1 ≤ r.1) ∧ (x ≤ q.1 ∨ ∀ r ∈ pts, r.1 ≤ q.1) ∧
      extrapSorted pts x = p.2 + (q.2 - p.2) * (x - p.1) / (q.1 - p.1) := by
  induction pts with
  | nil => simp at hl
  | cons a rest ih =>
    cases rest with
    | nil => simp at hl
    | cons b rest =>
      obtain ⟨x0, y0⟩ := a
      obtain ⟨x1, y1⟩ := b
      rw [List.pairwise_cons] at hs
      have h01 : x0 < x1 := hs.1 (x1, y1) (by simp)
      have hall : ∀ r ∈ rest, x1 < r.1 := (List.pairwise_cons.1 hs.2).1
      have base : ∀ r ∈ ((x0, y0) :: (x1, y1) :: rest), r.1 ≤ x0 ∨ x1 ≤ r.1 := by
        intro r hr
        rcases List.mem_cons.1 hr with rfl | hr
        · exact Or.inl (le_refl _)
        · rcases List.mem_cons.1 hr with rfl | hr
          · exact Or.inr (le_refl _)
          · exact Or.inr (le_of_lt (hall r hr))
      have low : ∀ r ∈ ((x0, y0) :: (x1, y1) :: rest), x0 ≤ r.1 := by
        intro r hr
        rcases List.mem_cons.1 hr with rfl | hr
        · exact le_refl _
        · exact le_of_lt (hs.1 r hr)
      cases rest with
      | nil =>
        refine ⟨(x0, y0), by simp, (x1, y1), by simp, h01, base, Or.inr low, Or.inr ?_, ?_⟩
        · intro r hr
          rcases List.mem_cons.1 hr with rfl | hr
          · exact le_of_lt h01
          · rcases List.mem_cons.1 hr with rfl | hr
            · exact le_refl _
            · cases hr
        · simp only [extrapSorted, mul_div_assoc]
      | cons c rest =>
        by_cases hx : x ≤ x1
        · refine ⟨(x0, y0), by simp, (x1, y1), by simp, h01, base, Or.inr low, Or.inl hx, ?_⟩
          simp only [extrapSorted, if_pos hx, mul_div_assoc]
        · obtain ⟨p, hp, q, hq, hpq, hno, hlo, hhi, he⟩ := ih hs.2 (by simp)
          refine ⟨p, List.mem_cons_of_mem _ hp, q, List.mem_cons_of_mem _ hq, hpq, ?_, ?_, ?_, ?_⟩
          · intro r hr
            rcases List.mem_cons.1 hr with rfl | hr
            · exact Or.inl (le_of_lt (hs.1 p hp))
            · exact hno r hr
          · rcases hlo with h | h
            · exact Or.inl h
            · exact Or.inl (le_trans (h (x1, y1) (by simp)) (le_of_lt (not_le.1 hx)))
          · rcases hhi with h | h
            · exact Or.inl h
            · refine Or.inr (fun r hr => ?_)
              rcases List.mem_cons.1 hr with rfl | hr
              · exact le_of_lt (hs.1 q hq)
              · exact h r hr
          · rw [← he]
            simp only [extrapSorted, if_neg hx]

theorem onExtended_mem {a b : List (Rat × Rat)} (h : ∀ p, p ∈ a ↔ p ∈ b) {x y : Rat} (ha : OnExtended a x y) :
    OnExtended b x y := by
  obtain ⟨p, hp, q, hq, h1, h2, h3, h4, h5⟩ := ha
  exact ⟨p, (h p).1 hp, q, (h q).1 hq, h1, fun r hr => h2 r ((h r).2 hr), h3.imp id (fun g r hr => g r ((h r).2 hr)),
    h4.imp id (fun g r hr => g r ((h r).2 hr)), h5⟩

theorem mem_byVoltage {e : Curve} {a b : Rat} : (a, b) ∈ byVoltage e ↔ (b, some a) ∈ e := by
  unfold byVoltage
  rw [mem_sortBy, List.mem_filterMap]
  constructor
  · rintro ⟨p, hp, he⟩
    obtain ⟨v, hv, h2⟩ := Option.map_eq_some_iff.1 he
    obtain ⟨rfl, rfl⟩ := Prod.mk.inj h2
    rw [← hv]; exact hp
  · intro h
    exact ⟨(b, some a), h, rfl⟩

theorem byVoltage_strict {e : Curve} (h : e.Pairwise (fun p q => p.2 ≠ none → p.2 ≠ q.2)) :
    (byVoltage e).Pairwise (fun p q => p.1 < q.1) := by
  have h1 : (byVoltage e).Pairwise (fun p q => decide (p.1 ≤ q.1) = true) :=
    pairwise_sortBy _ (by intro a b c; simp only [decide_eq_true_eq]; exact le_trans)
      (by intro a b; simp only [Bool.or_eq_true, decide_eq_true_eq]; exact le_total _ _) _
  have h2 : ((e.filterMap (fun p => p.2.map (fun v => (v, p.1)))).map Prod.fst).Nodup := by
    unfold List.Nodup
    rw [List.pairwise_map, List.pairwise_filterMap]
    refine h.imp ?_
    intro p q hpq b hb b' hb' he
    obtain ⟨v, hv, rfl⟩ := Option.map_eq_some_iff.1 hb
    obtain ⟨w, hw, rfl⟩ := Option.map_eq_some_iff.1 hb'
    simp only at he
    exact hpq (by rw [hv]; simp) (by rw [hv, hw, he])
  have h3 : ((byVoltage e).map Prod.fst).Nodup := ((sortBy_perm _ _).map Prod.fst).nodup_iff.2 h2
  have h4 : (byVoltage e).Pairwise (fun p q => p.1 ≠ q.1) := List.pairwise_map.1 h3
  exact h1.imp₂ (fun p q hle hne => lt_of_le_of_ne (of_decide_eq_true hle) hne) h4

/-- the state of charge at a voltage -/
theorem socAt_ok {e : Curve} (h : Monotone e) (v : Rat) : SocAt e v (socAt e v) := by
  intro pts hpts
  have hs := byVoltage_strict h.1
  obtain ⟨⟨x, a⟩, hp, ⟨y, b⟩, hq, ha, hb, hab⟩ := h.2
  cases a with
  | none => exact absurd rfl ha
  | some a => cases b with
    | none => exact absurd rfl hb
    | some b =>
      have m1 : (a, x) ∈ byVoltage e := mem_byVoltage.2 hp
      have m2 : (b, y) ∈ byVoltage e := mem_byVoltage.2 hq
      have hl : 2 ≤ (byVoltage e).length := by
        match hby : byVoltage e with
        | [] => rw [hby] at m1; cases m1
        | [c] =>
          rw [hby] at m1 m2
          rw [List.mem_singleton] at m1 m2
          rw [← m2] at m1
          exact absurd (congrArg some (Prod.mk.inj m1).1) hab
        | _ :: _ :: _ => simp
      refine onExtended_mem (fun p => ?_) (extrap_ext _ hs hl v)
      obtain ⟨c, d⟩ := p
      rw [mem_byVoltage, hpts]

end Beep.Intracell
