import Verif.Proof.Rounding
import Verif.Proof.Pandas
import Verif.Spec.Summary
/-
Helper lemmas for Props/Summary.
-/
namespace Beep.Summary
open Beep.Pandas Beep.Spec.Summary

theorem withThroughput_get (a e : Rat) (rs : List Row) (k : Nat) (r : Row)
    (h : (withThroughput a e rs)[k]? = some r) :
    ∃ r0, rs[k]? = some r0 ∧
      r = { r0 with
        chgThroughput := r0.chgCap.map (fun _ => a + ((rs.take (k + 1)).filterMap Row.chgCap).sum)
        enThroughput := r0.chgEn.map (fun _ => e + ((rs.take (k + 1)).filterMap Row.chgEn).sum) } := by
  induction rs generalizing a e k with
  | nil => simp [withThroughput] at h
  | cons x xs ih =>
    cases k with
    | zero =>
      simp only [withThroughput, List.getElem?_cons_zero, Option.some.injEq] at h
      refine ⟨x, by simp, ?_⟩
      rw [← h]
      congr 1
      · cases hx : x.chgCap <;> simp [hx, addN]
      · cases hx : x.chgEn <;> simp [hx, addN]
    | succ k =>
      simp only [withThroughput, List.getElem?_cons_succ] at h
      obtain ⟨r0, h0, h1⟩ := ih _ _ _ h
      refine ⟨r0, by simpa using h0, ?_⟩
      rw [h1]
      have e1 : addN a x.chgCap +
          ((xs.take (k + 1)).filterMap Row.chgCap).sum =
          a + (((x :: xs).take (k + 1 + 1)).filterMap Row.chgCap).sum := by
        cases hx : x.chgCap with
        | none => simp [hx, addN]
        | some v => simp [hx, addN]; ring
      have e2 : addN e x.chgEn +
          ((xs.take (k + 1)).filterMap Row.chgEn).sum =
          e + (((x :: xs).take (k + 1 + 1)).filterMap Row.chgEn).sum := by
        cases hx : x.chgEn with
        | none => simp [hx, addN]
        | some v => simp [hx, addN]; ring
      rw [e1, e2]

theorem length_withThroughput (a e : Rat) (rs : List Row) :
    (withThroughput a e rs).length = rs.length := by
  induction rs generalizing a e with
  | nil => rfl
  | cons x xs ih => simp [withThroughput, ih]

theorem map_withThroughput {β : Type} (f : Row → β)
    (hf : ∀ r c e, f { r with chgThroughput := c, enThroughput := e } = f r) (a e : Rat) (rs : List Row) :
    (withThroughput a e rs).map f = rs.map f := by
  induction rs generalizing a e with
  | nil => rfl
  | cons x xs ih => simp [withThroughput, ih, hf]

/-- the kept cycles -/
def kept (diag : Option (List Int)) (raw : List Raw) : List Int :=
  (cycles raw).filter (fun c => (regCycles diag raw).contains c)

theorem table_map {β : Type} (f : Row → β)
    (hf : ∀ r c e d, f { r with chgThroughput := c, enThroughput := e, duration := d } = f r)
    (p : Params) (diag : Option (List Int)) (raw : List Raw) :
    (table p diag raw).map f = (kept diag raw).map (fun c => f (aggregate p raw c)) := by
  unfold table
  simp only
  rw [List.map_map]
  have : (f ∘ fun r : Row => { r with duration := durationFor p raw r.label }) = f := by
    funext r
    exact hf r r.chgThroughput r.enThroughput _
  rw [this, map_withThroughput f (fun r c e => hf r c e r.duration), List.map_map]
  rfl

theorem table_get (p : Params) (diag : Option (List Int)) (raw : List Raw) (k : Nat) (r : Row)
    (h : (table p diag raw)[k]? = some r) :
    ∃ c, (kept diag raw)[k]? = some c ∧ r.label = c ∧ r.cycle = c ∧
      r.chgCap = maxN ((cycleRows raw c).map Raw.chgCap) ∧
      r.dchgCap = maxN ((cycleRows raw c).map Raw.dchgCap) ∧
      r.chgEn = errorFilter p.errorThreshold (maxN ((cycleRows raw c).map Raw.chgEn)) ∧
      r.dchgEn = errorFilter p.errorThreshold (maxN ((cycleRows raw c).map Raw.dchgEn)) ∧
      r.efficiency = efficiency (maxN ((cycleRows raw c).map Raw.dchgEn))
        (maxN ((cycleRows raw c).map Raw.chgEn)) ∧
      r.duration = durationFor p raw c ∧
      r.chgThroughput = r.chgCap.map
        (fun _ => (((table p diag raw).take (k + 1)).filterMap Row.chgCap).sum) ∧
      r.enThroughput = r.chgEn.map
        (fun _ => (((table p diag raw).take (k + 1)).filterMap Row.chgEn).sum) := by
  have hfm : ∀ (f : Row → Option Rat)
      (_ : ∀ r c e d, f { r with chgThroughput := c, enThroughput := e, duration := d } = f r),
      ((table p diag raw).take (k + 1)).filterMap f =
        (((kept diag raw).map (aggregate p raw)).take (k + 1)).filterMap f := by
    intro f hf
    have e := congrArg (List.take (k + 1)) (table_map f hf p diag raw)
    rw [← List.map_take, ← List.map_take] at e
    have e' : ∀ l : List Row, l.filterMap f = (l.map f).filterMap id := by
      intro l; rw [List.filterMap_map]; rfl
    rw [e', e, e', ← List.map_take, List.map_map]
    rfl
  have h1 := hfm Row.chgCap (fun _ _ _ _ => rfl)
  have h2 := hfm Row.chgEn (fun _ _ _ _ => rfl)
  unfold table at h
  simp only at h
  rw [List.getElem?_map] at h
  cases hw : (withThroughput 0 0 ((kept diag raw).map (aggregate p raw)))[k]? with
  | none =>
    unfold kept at hw
    rw [hw] at h; cases h
  | some r1 =>
    have hw' := hw
    unfold kept at hw
    rw [hw] at h
    simp only [Option.map_some, Option.some.injEq] at h
    obtain ⟨r0, h0, e0⟩ := withThroughput_get _ _ _ _ _ hw'
    rw [List.getElem?_map] at h0
    cases hk : (kept diag raw)[k]? with
    | none => rw [hk] at h0; cases h0
    | some c =>
      rw [hk] at h0
      simp only [Option.map_some, Option.some.injEq] at h0
      subst h0
      subst e0
      subst h
      refine ⟨c, rfl, rfl, rfl, rfl, rfl, rfl, rfl, rfl, rfl, ?_, ?_⟩
      · simp only [h1, zero_add]
      · simp only [h2, zero_add]

theorem mem_cycles {raw : List Raw} {c : Int} : c ∈ cycles raw ↔ ∃ r ∈ raw, r.cycle = c := by
  unfold cycles
  rw [mem_groupKeys, List.mem_map]

theorem mem_regCycles {diag : Option (List Int)} {raw : List Raw} {c : Int} :
    c ∈ regCycles diag raw ↔ (∃ r ∈ raw, r.cycle = c) ∧ c ∉ diag.getD [] := by
  unfold regCycles
  cases diag with
  | none => simp [mem_unique]
  | some ix =>
    simp only [mem_unique, List.mem_map, List.mem_filter, Option.getD_some]
    constructor
    · rintro ⟨r, ⟨h1, h2⟩, rfl⟩
      exact ⟨⟨r, h1, rfl⟩, by simpa using h2⟩
    · rintro ⟨⟨r, h1, rfl⟩, h2⟩
      exact ⟨r, ⟨h1, by simpa using h2⟩, rfl⟩

theorem kept_regular (diag : Option (List Int)) (raw : List Raw) :
    RegularCycles (diag.getD []) raw (kept diag raw) := by
  constructor
  · exact (sorted_groupKeys _).filter _
  · intro c
    unfold kept
    rw [List.mem_filter, mem_cycles, List.contains_iff_mem, mem_regCycles]
    tauto

theorem regular_unique {diag : List Int} {raw : List Raw} {a b : List Int}
    (ha : RegularCycles diag raw a) (hb : RegularCycles diag raw b) : a = b := by
  have hp : a.Perm b := by
    rw [List.perm_ext_iff_of_nodup (ha.1.imp (fun h => ne_of_lt h)) (hb.1.imp (fun h => ne_of_lt h))]
    intro c
    rw [ha.2, hb.2]
  exact hp.eq_of_pairwise (fun x y _ _ h1 h2 => absurd h1 (lt_asymm h2)) ha.1 hb.1

theorem isMax_iff {vals : List (Option Rat)} {m : Rat} : maxN vals = some m ↔ IsMax vals m := by
  constructor
  · exact maxN_some vals m
  · rintro ⟨h1, h2⟩
    cases h : maxN vals with
    | none => exact absurd ⟨m, h1⟩ ((maxN_none vals).mp h)
    | some n =>
      obtain ⟨h3, h4⟩ := maxN_some vals n h
      rw [le_antisymm (h2 n h3) (h4 m h1)]

theorem ltN_min {vals : List (Option Rat)} {t : Rat} :
    ltN (minN vals) t = true ↔ ∃ v, some v ∈ vals ∧ v < t := by
  cases h : minN vals with
  | none =>
    have := (minN_none vals).mp h
    simp only [ltN, Bool.false_eq_true, false_iff]
    rintro ⟨v, hv, _⟩
    exact this ⟨v, hv⟩
  | some m =>
    obtain ⟨h1, h2⟩ := minN_some vals m h
    simp only [ltN, decide_eq_true_eq]
    exact ⟨fun hm => ⟨m, h1, hm⟩, fun ⟨v, hv, hlt⟩ => lt_of_le_of_lt (h2 v hv) hlt⟩

theorem gtN_max {vals : List (Option Rat)} {t : Rat} :
    gtN (maxN vals) t = true ↔ ∃ v, some v ∈ vals ∧ v > t := by
  cases h : maxN vals with
  | none =>
    have := (maxN_none vals).mp h
    simp only [gtN, Bool.false_eq_true, false_iff]
    rintro ⟨v, hv, _⟩
    exact this ⟨v, hv⟩
  | some m =>
    obtain ⟨h1, h2⟩ := maxN_some vals m h
    simp only [gtN, decide_eq_true_eq]
    exact ⟨fun hm => ⟨m, h1, hm⟩, fun ⟨v, hv, hlt⟩ => lt_of_lt_of_le hlt (h2 v hv)⟩

/-- the volts used by the rule -/
theorem lastComplete_iff (p : Params) (raw : List Raw) (last : Row) (c : Int)
    (hc : (cycles raw).getLast? = some c)
    (hd : last.dchgCap = maxN ((cycleRows raw c).map Raw.dchgCap))
    (hq : last.chgCap = maxN ((cycleRows raw c).map Raw.chgCap)) :
    lastComplete p raw last = true ↔ Complete p raw c := by
  have hv : ∀ (P : Rat → Prop), (∃ v, some v ∈ (cycleRows raw c).map Raw.voltage ∧ P v) ↔
      ∃ r ∈ rowsOf raw c, ∃ v, r.voltage = some v ∧ P v := by
    intro P
    constructor
    · rintro ⟨v, hv, hp⟩
      rw [List.mem_map] at hv
      obtain ⟨r, hr, e⟩ := hv
      exact ⟨r, hr, v, e, hp⟩
    · rintro ⟨r, hr, v, e, hp⟩
      exact ⟨v, List.mem_map.mpr ⟨r, hr, e⟩, hp⟩
  unfold lastComplete Complete lastVolts
  simp only [hc, Bool.and_eq_true, ltN_min, gtN_max]
  rw [hv, hv, and_assoc]
  refine and_congr Iff.rfl (and_congr Iff.rfl ?_)
  rw [hd, hq]
  constructor
  · intro h
    split at h
    · rename_i d q h1 h2
      exact ⟨d, q, isMax_iff.mp h1, isMax_iff.mp h2, by simpa using h⟩
    · cases h
  · rintro ⟨d, q, h1, h2, h3⟩
    have e1 := isMax_iff.mpr h1
    have e2 := isMax_iff.mpr h2
    unfold rowsOf at e1 e2
    unfold cycleRows
    rw [e1, e2]
    simpa using h3

theorem kept_last {diag : Option (List Int)} {raw : List Raw} {c : Int}
    (hc : (cycles raw).getLast? = some c) (hr : c ∉ diag.getD []) : (kept diag raw).getLast? = some c := by
  have hm : c ∈ cycles raw := List.mem_of_getLast? hc
  obtain ⟨l, hl⟩ := List.getLast?_eq_some_iff.mp hc
  unfold kept
  rw [hl, List.filter_append]
  have : List.filter (fun c => (regCycles diag raw).contains c) [c] = [c] := by
    have : (regCycles diag raw).contains c = true := by
      rw [List.contains_iff_mem, mem_regCycles]
      exact ⟨mem_cycles.mp hm, hr⟩
    simpa using this
  rw [this]
  simp

/-! ### durations -/

theorem durationAt_spec (p : Params) (raw : List Raw) (i : Nat) (c : Int)
    (hi : (cycles raw)[i]? = some c) : IsDuration p raw c (durationAt p raw i) := by
  unfold durationAt
  rw [hi]
  simp only
  let reach : Raw → Bool := fun r => match r.chgCap with
    | some q => decide (q ≥ p.nominal * p.fullFast)
    | none => false
  have hreach : ∀ x : Raw, reach x = false ↔ ∀ q, x.chgCap = some q → q < p.nominal * p.fullFast := by
    intro x
    simp only [reach]
    cases hx : x.chgCap with
    | none => simp
    | some q => simp
  have hmem : c ∈ cycles raw := List.mem_of_getElem? hi
  obtain ⟨r, hr, hrc⟩ := mem_cycles.mp hmem
  have hne : cycleRows raw c ≠ [] := by
    intro h
    have : r ∈ cycleRows raw c := by unfold cycleRows; rw [List.mem_filter]; exact ⟨hr, by simpa using hrc⟩
    rw [h] at this; cases this
  obtain ⟨a, rest, ha⟩ := List.exists_cons_of_ne_nil hne
  have hhead : (cycleRows raw c).head? = some a := by rw [ha]; rfl
  show IsDuration p raw c (match (cycleRows raw c).head?, (cycleRows raw c).find? reach with
    | some a, some b => some (round2 (b.stamp - a.stamp))
    | _, _ => none)
  cases hf : (cycleRows raw c).find? reach with
  | none =>
    right
    refine ⟨?_, by rw [hhead]⟩
    rw [List.find?_eq_none] at hf
    intro x hx q hq
    have := hf x hx
    have : reach x = false := by simpa using this
    exact (hreach x).mp this q hq
  | some b =>
    left
    refine ⟨a, b, hhead, ?_, round2 (b.stamp - a.stamp), (Proof.twoDecimals_iff _ _).mpr rfl, by rw [hhead]⟩
    obtain ⟨hb, as, bs, e, hbefore⟩ := List.find?_eq_some_iff_append.mp hf
    refine ⟨as, bs, e, ?_, ?_⟩
    · cases hx : b.chgCap with
      | none => simp [reach, hx] at hb
      | some q => exact ⟨q, rfl, by simpa [reach, hx] using hb⟩
    · intro x hx q hq
      have := hbefore x hx
      have : reach x = false := by simpa using this
      exact (hreach x).mp this q hq

/-! ### cycle life -/

theorem find_firstBelow {s : Caps} {level : Rat} {r : Int × Rat}
    (h : s.find? (fun r => decide (r.2 < level)) = some r) : FirstBelow s level r.1 := by
  obtain ⟨hb, as, bs, e, hbefore⟩ := List.find?_eq_some_iff_append.mp h
  refine ⟨as, r.2, bs, e, by simpa using hb, ?_⟩
  intro x hx
  have := hbefore x hx
  simpa using this

theorem mapE_ok {α β : Type} {f : α → Except Err β} {l : List α} {out : List β}
    (h : mapE f l = .ok out) : out.length = l.length ∧ ∀ (i : Nat) a, l[i]? = some a → ∃ b, f a = .ok b ∧ out[i]? = some b := by
  induction l generalizing out with
  | nil => simp [mapE] at h; subst h; simp
  | cons x xs ih =>
    unfold mapE at h
    split at h
    · cases h
    rename_i b hb
    split at h
    · cases h
    rename_i bs hbs
    cases h
    obtain ⟨h1, h2⟩ := ih hbs
    refine ⟨by simp [h1], ?_⟩
    intro i a hi
    cases i with
    | zero => simp at hi; subst hi; exact ⟨b, hb, rfl⟩
    | succ i => simpa using h2 i a (by simpa using hi)

end Beep.Summary
