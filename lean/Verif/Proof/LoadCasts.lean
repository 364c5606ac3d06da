import Verif.Proof.CastsRead
import Verif.Proof.CastsTime
import Verif.Proof.Py
import Verif.Spec.LoadCasts
/-
Lemmas about the casts of loading.
-/
namespace Beep.LoadCasts
open Beep Beep.Casts Beep.Spec.Casts Beep.Spec.LoadCasts

/-! ### Cells -/

theorem toFmt_again (m : Fmt) (hp : 2 ≤ m.bits) {x r : Rat} (h : toFmt m x = .num r) : toFmt m r = .num r := by
  obtain ⟨s, hs, e⟩ := toFmt_stored m hp x
  rw [h] at e
  split at e
  · next hl =>
    cases e
    obtain ⟨r', hr', e'⟩ := toFmt_stored m hp r
    have h0 := hr'.2.1 r hs.1
    rw [sub_self, abs_zero] at h0
    have h1 : r - r' = 0 := abs_eq_zero.mp (le_antisymm h0 (abs_nonneg _))
    have h2 : r' = r := by linarith
    subst h2
    rw [e', if_pos hl]
  · cases e

theorem trunc_int (n : Int) : trunc (n : Rat) = n := whole_int _ _ (trunc_whole _)

theorem toFmt_cast (m : Fmt) (hp : 2 ≤ m.bits) (x : Rat) : (∃ b, toFmt m x = .inf b) ∨ ∃ r, toFmt m x = .num r ∧ toFmt m r = .num r := by
  obtain ⟨s, hs, e⟩ := toFmt_stored m hp x
  split at e
  · exact .inr ⟨s, e, toFmt_again m hp e⟩
  · exact .inl ⟨_, e⟩

theorem castCell_again {t : DType} {x y : Cell} (h : castCell t x = .ok y) : castCell t y = .ok y := by
  cases t with
  | int b =>
    cases x with
    | num q => cases h; simp only [castCell, trunc_int, Int.bmod_bmod]
    | nan => cases h
    | inf _ => cases h
    | text _ => cases h
  | uint b =>
    cases x with
    | num q => cases h; simp only [castCell, trunc_int, Int.emod_emod_of_dvd _ (dvd_refl _)]
    | nan => cases h
    | inf _ => cases h
    | text _ => cases h
  | float16 =>
    cases x with
    | num q =>
      simp only [castCell, Except.ok.injEq] at h
      rcases toFmt_cast half (by decide) q with ⟨b, e⟩ | ⟨r, e, e'⟩
      · rw [← h, e]; rfl
      · rw [← h, e]; simp only [castCell, e']
    | nan => cases h; rfl
    | inf _ => cases h; rfl
    | text _ => cases h
  | float32 =>
    cases x with
    | num q =>
      simp only [castCell, Except.ok.injEq] at h
      rcases toFmt_cast single (by decide) q with ⟨b, e⟩ | ⟨r, e, e'⟩
      · rw [← h, e]; rfl
      · rw [← h, e]; simp only [castCell, e']
    | nan => cases h; rfl
    | inf _ => cases h; rfl
    | text _ => cases h
  | float64 => cases x <;> cases h <;> rfl
  | str => cases x <;> cases h <;> rfl
  | category => cases x <;> cases h <;> rfl

theorem series_fix {t : DType} {y : Cell} (h : castCell t y = .ok y) : seriesCell t y = .ok y := by
  cases t with
  | int b =>
    cases y with
    | num q =>
      simp only [castCell, Except.ok.injEq, Cell.num.injEq] at h
      simp only [seriesCell, h, ↓reduceIte]
    | nan => cases h
    | inf _ => cases h
    | text _ => cases h
  | uint b =>
    cases y with
    | num q =>
      simp only [castCell, Except.ok.injEq, Cell.num.injEq] at h
      simp only [seriesCell, h, ↓reduceIte]
    | nan => cases h
    | inf _ => cases h
    | text _ => cases h
  | float16 => cases y <;> exact h
  | float32 => cases y <;> exact h
  | float64 => cases y <;> exact h
  | str => cases y <;> exact h
  | category => cases y <;> exact h

/-- what a list gives is what a cast gives -/
theorem series_cast {t : DType} {x y : Cell} (h : seriesCell t x = .ok y) : castCell t x = .ok y := by
  cases t with
  | int b =>
    cases x with
    | num q =>
      simp only [seriesCell] at h
      split at h
      · next e => cases h; simp only [castCell, e]
      · cases h
    | nan => cases h
    | inf _ => cases h
    | text _ => cases h
  | uint b =>
    cases x with
    | num q =>
      simp only [seriesCell] at h
      split at h
      · next e => cases h; simp only [castCell, e]
      · cases h
    | nan => cases h
    | inf _ => cases h
    | text _ => cases h
  | float16 => cases x <;> exact h
  | float32 => cases x <;> exact h
  | float64 => cases x <;> exact h
  | str => cases x <;> exact h
  | category => cases x <;> exact h

theorem series_takes (t : DType) (ht : t.sized) (x : Cell) : (∃ y, seriesCell t x = .ok y) ↔ Takes (kindOf t) x := by
  cases t with
  | int b =>
    cases x with
    | num q =>
      constructor
      · rintro ⟨y, h⟩
        have hc := castCell_stored _ ht _ _ (series_cast h)
        simp only [seriesCell] at h
        split at h
        · cases h
          obtain ⟨n, k, _, l1, l2, e⟩ := hc
          exact ⟨_, e, l1, l2⟩
        · cases h
      · rintro ⟨n, e, l1, l2⟩
        cases e
        have hc : castCell (.int b) (.num n) = .ok (.num ((trunc (n : Rat)).bmod (2 ^ b) : Int)) := rfl
        have hs := castCell_stored _ ht _ _ hc
        obtain ⟨m, k, hm, k1, k2, e⟩ := hs
        have em := whole_int _ _ hm
        subst em
        have hb : 1 ≤ b := ht
        have hp : (2 : Int) ^ b = 2 ^ (b - 1) * 2 := by rw [← pow_succ]; congr 1; omega
        have hpos : (0 : Int) < 2 ^ (b - 1) := by positivity
        have hk : k = 0 := by
          rw [hp] at k1 k2
          by_contra hk
          rcases lt_or_gt_of_ne hk with h | h <;> nlinarith
        subst hk
        refine ⟨.num m, series_fix ?_⟩
        rw [hc, e]; simp
    | nan => simp [seriesCell, castCell, kindOf, Takes]
    | inf _ => simp [seriesCell, castCell, kindOf, Takes]
    | text _ => simp [seriesCell, castCell, kindOf, Takes]
  | uint b =>
    cases x with
    | num q =>
      constructor
      · rintro ⟨y, h⟩
        have hc := castCell_stored _ ht _ _ (series_cast h)
        simp only [seriesCell] at h
        split at h
        · cases h
          obtain ⟨n, k, _, l1, l2, e⟩ := hc
          exact ⟨_, e, l1, l2⟩
        · cases h
      · rintro ⟨n, e, l1, l2⟩
        cases e
        refine ⟨.num n, series_fix ?_⟩
        simp only [castCell, trunc_int, Int.emod_eq_of_lt l1 l2]
    | nan => simp [seriesCell, castCell, kindOf, Takes]
    | inf _ => simp [seriesCell, castCell, kindOf, Takes]
    | text _ => simp [seriesCell, castCell, kindOf, Takes]
  | float16 => cases x <;> simp [seriesCell, castCell, kindOf, Takes, b16]
  | float32 => cases x <;> simp [seriesCell, castCell, kindOf, Takes, b32]
  | float64 => cases x <;> simp [seriesCell, castCell, kindOf, Takes]
  | str => cases x <;> simp [seriesCell, castCell, kindOf, Takes]
  | category => cases x <;> simp [seriesCell, castCell, kindOf, Takes]

/-! ### Columns -/

theorem seriesCells_ok {t : DType} {xs ys : List Cell} (h : seriesCells t xs = .ok ys) :
    List.Forall₂ (fun x y => seriesCell t x = .ok y) xs ys := by
  induction xs generalizing ys with
  | nil => cases h; exact .nil
  | cons x xs ih =>
    rw [seriesCells] at h
    split at h
    · cases h
    · next y hy =>
      split at h
      · cases h
      · next ys' hys => cases h; exact .cons hy (ih hys)

theorem seriesCells_ok_iff (t : DType) (ht : t.sized) (xs : List Cell) :
    (∃ ys, seriesCells t xs = .ok ys) ↔ ∀ x ∈ xs, Takes (kindOf t) x := by
  induction xs with
  | nil => simp [seriesCells]
  | cons x xs ih =>
    rw [List.forall_mem_cons, ← ih, ← series_takes t ht, seriesCells]
    constructor
    · rintro ⟨ys, h⟩
      split at h
      · cases h
      · next y hy =>
        split at h
        · cases h
        · next ys' hys => exact ⟨⟨y, hy⟩, ⟨ys', hys⟩⟩
    · rintro ⟨⟨y, hy⟩, ⟨ys, hys⟩⟩
      exact ⟨y :: ys, by rw [hy]; simp only [hys]⟩

theorem seriesCells_fix {t : DType} {xs : List Cell} (h : ∀ x ∈ xs, seriesCell t x = .ok x) : seriesCells t xs = .ok xs := by
  induction xs with
  | nil => rfl
  | cons x xs ih =>
    rw [seriesCells, h x (List.mem_cons_self ..), ih (fun y hy => h y (List.mem_cons_of_mem _ hy))]

theorem castColumn_fix {t : DType} {xs : List Cell} (h : ∀ x ∈ xs, castCell t x = .ok x) : castColumn t xs = .ok xs := by
  induction xs with
  | nil => rfl
  | cons x xs ih =>
    rw [castColumn, h x (List.mem_cons_self ..), ih (fun y hy => h y (List.mem_cons_of_mem _ hy))]

/-- every value of a result is one its type keeps -/
theorem columnSeries_again {t : DType} {c c' : Column} (h : columnSeries t c = .ok c') : columnSeries t c' = .ok c' := by
  cases c with
  | null => cases h; rfl
  | list xs =>
    simp only [columnSeries] at h
    split at h
    · cases h
    · next ys hys =>
      cases h
      have : castColumn t ys = .ok ys := by
        refine castColumn_fix (fun y hy => ?_)
        obtain ⟨x, _, hx⟩ := forall₂_mem_right (seriesCells_ok hys) y hy
        exact castCell_again (series_cast hx)
      simp only [columnSeries, this]
  | series u xs =>
    simp only [columnSeries] at h
    split at h
    · cases h
    · next ys hys =>
      cases h
      have : castColumn t ys = .ok ys := by
        refine castColumn_fix (fun y hy => ?_)
        obtain ⟨x, _, hx⟩ := forall₂_mem_right (castColumn_ok hys) y hy
        exact castCell_again hx
      simp only [columnSeries, this]

/-! ### Dictionaries -/

theorem set_same {κ ν : Type} [DecidableEq κ] {d : Dict κ ν} {k : κ} {v : ν} (h : Dict.get? d k = some v) : Dict.set d k v = d := by
  induction d with
  | nil => cases h
  | cons p d ih =>
    obtain ⟨k', v'⟩ := p
    rw [Dict.get?] at h
    rw [Dict.set]
    split at h
    · next e => cases h; rw [if_pos e, e]
    · next e => rw [if_neg e, ih h]

theorem keys_set_of {κ ν : Type} [DecidableEq κ] {d : Dict κ ν} {k : κ} {w : ν} (v : ν) (h : Dict.get? d k = some w) :
    Dict.keys (Dict.set d k v) = Dict.keys d := by
  rw [Dict.keys_set, if_pos]
  by_contra hn
  rw [Dict.get?_eq_none_iff.mpr hn] at h
  cases h

/-- what one column of an object becomes -/
structure Becomes (ts : List (String × DType)) (d d' : Dict String Column) : Prop where
  keys : Dict.keys d' = Dict.keys d
  other : ∀ n, typeOf ts n = none → Dict.get? d' n = Dict.get? d n
  absent : ∀ n, Dict.get? d n = none → Dict.get? d' n = none
  cast : ∀ n t c, typeOf ts n = some t → Dict.get? d n = some c → ∃ c', columnSeries t c = .ok c' ∧ Dict.get? d' n = some c'

theorem becomes_skip {ts : List (String × DType)} {c : String} {t : DType} {d d' : Dict String Column}
    (hn : c ∉ ts.map Prod.fst) (hd : Dict.get? d c = none ∨ Dict.get? d c = some .null) (h : Becomes ts d d') :
    Becomes ((c, t) :: ts) d d' where
  keys := h.keys
  other := by
    intro n e
    rw [typeOf_cons] at e
    split at e
    · cases e
    · exact h.other n e
  absent := h.absent
  cast := by
    intro n u col e hg
    rw [typeOf_cons] at e
    split at e
    · next en =>
      cases e
      subst en
      rcases hd with hd | hd
      · rw [hd] at hg; cases hg
      · rw [hd] at hg; cases hg
        exact ⟨.null, rfl, by rw [h.other _ (typeOf_none hn), hd]⟩
    · exact h.cast n u col e hg

theorem becomes_set {ts : List (String × DType)} {c : String} {t : DType} {d d' : Dict String Column} {col col' : Column}
    (hn : c ∉ ts.map Prod.fst) (hd : Dict.get? d c = some col) (hc : columnSeries t col = .ok col')
    (h : Becomes ts (Dict.set d c col') d') : Becomes ((c, t) :: ts) d d' where
  keys := by rw [h.keys, keys_set_of _ hd]
  other := by
    intro n e
    rw [typeOf_cons] at e
    split at e
    · cases e
    · next en => rw [h.other n e, Dict.get?_set_ne _ _ (fun x => en x.symm)]
  absent := by
    intro n e
    have en : n ≠ c := by rintro rfl; rw [hd] at e; cases e
    exact h.absent n (by rw [Dict.get?_set_ne _ _ en]; exact e)
  cast := by
    intro n u x e hg
    rw [typeOf_cons] at e
    split at e
    · next en =>
      cases e
      subst en
      rw [hd] at hg; cases hg
      exact ⟨col', hc, by rw [h.other _ (typeOf_none hn), Dict.get?_set_self]⟩
    · next en => exact h.cast n u x e (by rw [Dict.get?_set_ne _ _ (fun x => en x.symm)]; exact hg)

theorem loadObject_ok {ts : List (String × DType)} (hn : (ts.map Prod.fst).Nodup) {d d' : Dict String Column}
    (h : loadObject ts d = .ok d') : Becomes ts d d' := by
  induction ts generalizing d with
  | nil =>
    cases h
    exact ⟨rfl, fun _ _ => rfl, fun _ h => h, fun n t c e _ => by simp [typeOf] at e⟩
  | cons p ts ih =>
    obtain ⟨c, t⟩ := p
    rw [List.map_cons, List.nodup_cons] at hn
    rw [loadObject] at h
    split at h
    · next e => exact becomes_skip hn.1 (.inl e) (ih hn.2 h)
    · next e => exact becomes_skip hn.1 (.inr e) (ih hn.2 h)
    · next col _ e =>
      split at h
      · cases h
      · next col' hc => exact becomes_set hn.1 e hc (ih hn.2 h)

theorem loadObject_ok_iff {ts : List (String × DType)} (hn : (ts.map Prod.fst).Nodup) (d : Dict String Column) :
    (∃ d', loadObject ts d = .ok d') ↔
      ∀ n t c, typeOf ts n = some t → Dict.get? d n = some c → ∃ c', columnSeries t c = .ok c' := by
  constructor
  · rintro ⟨d', h⟩ n t c e hg
    obtain ⟨c', h1, _⟩ := (loadObject_ok hn h).cast n t c e hg
    exact ⟨c', h1⟩
  · intro h
    induction ts generalizing d with
    | nil => exact ⟨d, rfl⟩
    | cons p ts ih =>
      obtain ⟨c, t⟩ := p
      rw [List.map_cons, List.nodup_cons] at hn
      have step : ∀ e : Dict String Column, (∀ n, n ≠ c → Dict.get? e n = Dict.get? d n) → ∃ d', loadObject ts e = .ok d' := by
        intro e he
        refine ih hn.2 e (fun n u x hu hx => ?_)
        have hne : c ≠ n := by
          rintro rfl
          rw [typeOf_none hn.1] at hu; cases hu
        exact h n u x (by rw [typeOf_cons, if_neg hne]; exact hu) (by rw [← he n (Ne.symm hne)]; exact hx)
      rw [loadObject]
      split
      · exact step d (fun _ _ => rfl)
      · exact step d (fun _ _ => rfl)
      · next col _ e =>
        obtain ⟨col', hc⟩ := h c t col (by rw [typeOf_cons, if_pos rfl]) e
        rw [hc]
        exact step _ (fun n hne => Dict.get?_set_ne _ _ hne)

theorem loadObject_fix {ts : List (String × DType)} {d : Dict String Column}
    (h : ∀ n t c, (n, t) ∈ ts → Dict.get? d n = some c → columnSeries t c = .ok c) : loadObject ts d = .ok d := by
  induction ts with
  | nil => rfl
  | cons p ts ih =>
    obtain ⟨c, t⟩ := p
    have hi := ih (fun n t c hm => h n t c (List.mem_cons_of_mem _ hm))
    rw [loadObject]
    split
    · exact hi
    · exact hi
    · next col _ e => rw [h c t col (List.mem_cons_self ..) e]; simp only [set_same e, hi]

theorem loadObject_again {ts : List (String × DType)} (hn : (ts.map Prod.fst).Nodup) {d d' : Dict String Column}
    (h : loadObject ts d = .ok d') : loadObject ts d' = .ok d' := by
  have hb := loadObject_ok hn h
  refine loadObject_fix (fun n t c hm hg => ?_)
  have ht := typeOf_of_mem hn hm
  cases e : Dict.get? d n with
  | none => rw [hb.absent n e] at hg; cases hg
  | some x =>
    obtain ⟨c', h1, h2⟩ := hb.cast n t x ht e
    rw [h2] at hg; cases hg
    exact columnSeries_again h1

/-! ### Documents -/

/-- what a document becomes -/
structure Loads (os : List (String × List (String × DType))) (d d' : Doc) : Prop where
  keys : Dict.keys d' = Dict.keys d
  other : ∀ o, o ∉ os.map Prod.fst → Dict.get? d' o = Dict.get? d o
  null : ∀ o, Dict.get? d o = some none → Dict.get? d' o = some none
  absent : ∀ o, Dict.get? d o = none → Dict.get? d' o = none
  cast : ∀ o ts cols, (o, ts) ∈ os → Dict.get? d o = some (some cols) →
    ∃ cols', loadObject ts cols = .ok cols' ∧ Dict.get? d' o = some (some cols')

theorem loads_skip {os : List (String × List (String × DType))} {o : String} {ts : List (String × DType)} {d d' : Doc}
    (hd : Dict.get? d o = none ∨ Dict.get? d o = some none) (h : Loads os d d') : Loads ((o, ts) :: os) d d' where
  keys := h.keys
  other := fun n e => h.other n (fun x => e (List.mem_cons_of_mem _ x))
  null := h.null
  absent := h.absent
  cast := by
    intro n us cols hm hg
    rcases List.mem_cons.mp hm with e | hm
    · cases e
      rcases hd with hd | hd <;> · rw [hd] at hg; cases hg
    · exact h.cast n us cols hm hg

theorem loads_set {os : List (String × List (String × DType))} {o : String} {ts : List (String × DType)} {d d' : Doc}
    {cols cols' : Dict String Column} (hn : o ∉ os.map Prod.fst) (hd : Dict.get? d o = some (some cols))
    (hc : loadObject ts cols = .ok cols') (h : Loads os (Dict.set d o (some cols')) d') : Loads ((o, ts) :: os) d d' where
  keys := by rw [h.keys, keys_set_of _ hd]
  other := by
    intro n e
    rw [List.map_cons, List.mem_cons, not_or] at e
    rw [h.other n e.2, Dict.get?_set_ne _ _ e.1]
  null := by
    intro n e
    have en : n ≠ o := by rintro rfl; rw [hd] at e; cases e
    exact h.null n (by rw [Dict.get?_set_ne _ _ en]; exact e)
  absent := by
    intro n e
    have en : n ≠ o := by rintro rfl; rw [hd] at e; cases e
    exact h.absent n (by rw [Dict.get?_set_ne _ _ en]; exact e)
  cast := by
    intro n us x hm hg
    rcases List.mem_cons.mp hm with e | hm
    · cases e
      rw [hd] at hg; cases hg
      exact ⟨cols', hc, by rw [h.other _ hn, Dict.get?_set_self]⟩
    · have en : n ≠ o := by intro e; exact hn (List.mem_map.mpr ⟨_, hm, e⟩)
      exact h.cast n us x hm (by rw [Dict.get?_set_ne _ _ en]; exact hg)

theorem loadAll_ok {os : List (String × List (String × DType))} (hn : (os.map Prod.fst).Nodup) {d d' : Doc}
    (h : loadAll os d = .ok d') : Loads os d d' := by
  induction os generalizing d with
  | nil =>
    cases h
    exact ⟨rfl, fun _ _ => rfl, fun _ h => h, fun _ h => h, fun _ _ _ hm => by cases hm⟩
  | cons p os ih =>
    obtain ⟨o, ts⟩ := p
    rw [List.map_cons, List.nodup_cons] at hn
    rw [loadAll] at h
    split at h
    · next e => exact loads_skip (.inl e) (ih hn.2 h)
    · next e => exact loads_skip (.inr e) (ih hn.2 h)
    · next cols e =>
      split at h
      · cases h
      · next cols' hc => exact loads_set hn.1 e hc (ih hn.2 h)

theorem loadAll_ok_iff {os : List (String × List (String × DType))} (hn : (os.map Prod.fst).Nodup) (d : Doc) :
    (∃ d', loadAll os d = .ok d') ↔
      ∀ o ts cols, (o, ts) ∈ os → Dict.get? d o = some (some cols) → ∃ cols', loadObject ts cols = .ok cols' := by
  constructor
  · rintro ⟨d', h⟩ o ts cols hm hg
    obtain ⟨c, h1, _⟩ := (loadAll_ok hn h).cast o ts cols hm hg
    exact ⟨c, h1⟩
  · intro h
    induction os generalizing d with
    | nil => exact ⟨d, rfl⟩
    | cons p os ih =>
      obtain ⟨o, ts⟩ := p
      rw [List.map_cons, List.nodup_cons] at hn
      have step : ∀ e : Doc, (∀ n, n ≠ o → Dict.get? e n = Dict.get? d n) → ∃ d', loadAll os e = .ok d' := by
        intro e he
        refine ih hn.2 e (fun n us x hm hx => ?_)
        have hne : n ≠ o := by intro e; exact hn.1 (List.mem_map.mpr ⟨_, hm, e⟩)
        exact h n us x (List.mem_cons_of_mem _ hm) (by rw [← he n hne]; exact hx)
      rw [loadAll]
      split
      · exact step d (fun _ _ => rfl)
      · exact step d (fun _ _ => rfl)
      · next cols e =>
        obtain ⟨cols', hc⟩ := h o ts cols (List.mem_cons_self ..) e
        rw [hc]
        exact step _ (fun n hne => Dict.get?_set_ne _ _ hne)

theorem loadAll_fix {os : List (String × List (String × DType))} {d : Doc}
    (h : ∀ o ts cols, (o, ts) ∈ os → Dict.get? d o = some (some cols) → loadObject ts cols = .ok cols) : loadAll os d = .ok d := by
  induction os with
  | nil => rfl
  | cons p os ih =>
    obtain ⟨o, ts⟩ := p
    have hi := ih (fun n t c hm => h n t c (List.mem_cons_of_mem _ hm))
    rw [loadAll]
    split
    · exact hi
    · exact hi
    · next cols e => rw [h o ts cols (List.mem_cons_self ..) e]; simp only [set_same e, hi]

theorem structureNames_nodup : (structureTypes.map Prod.fst).Nodup := by decide +kernel

theorem structure_agree {o : String} {ts : List (String × DType)} (h : (o, ts) ∈ structureTypes) :
    ∃ ks, (o, ks) ∈ kinds ∧ Agree ts ks := by
  simp only [structureTypes, List.mem_cons, Prod.mk.injEq, List.not_mem_nil, or_false] at h
  rcases h with ⟨rfl, rfl⟩ | ⟨rfl, rfl⟩ | ⟨rfl, rfl⟩ | ⟨rfl, rfl⟩
  · exact ⟨_, by simp [kinds], interpolatedTypes_agree⟩
  · exact ⟨_, by simp [kinds], summaryTypes_agree⟩
  · exact ⟨_, by simp [kinds], diagnosticSummaryTypes_agree⟩
  · exact ⟨_, by simp [kinds], diagnosticTypes_agree⟩

theorem kinds_types {o : String} {ks : List (List String × Kind)} (h : (o, ks) ∈ kinds) :
    ∃ ts, (o, ts) ∈ structureTypes ∧ Agree ts ks := by
  simp only [kinds, List.mem_cons, Prod.mk.injEq, List.not_mem_nil, or_false] at h
  rcases h with ⟨rfl, rfl⟩ | ⟨rfl, rfl⟩ | ⟨rfl, rfl⟩ | ⟨rfl, rfl⟩
  · exact ⟨_, by simp [structureTypes], interpolatedTypes_agree⟩
  · exact ⟨_, by simp [structureTypes], summaryTypes_agree⟩
  · exact ⟨_, by simp [structureTypes], diagnosticSummaryTypes_agree⟩
  · exact ⟨_, by simp [structureTypes], diagnosticTypes_agree⟩

theorem types_unique {o : String} {a b : List (String × DType)} (ha : (o, a) ∈ structureTypes) (hb : (o, b) ∈ structureTypes) :
    a = b := by
  simp only [structureTypes, List.mem_cons, Prod.mk.injEq, List.not_mem_nil, or_false] at ha hb
  rcases ha with ⟨rfl, rfl⟩ | ⟨rfl, rfl⟩ | ⟨rfl, rfl⟩ | ⟨rfl, rfl⟩ <;>
    rcases hb with ⟨e, rfl⟩ | ⟨e, rfl⟩ | ⟨e, rfl⟩ | ⟨e, rfl⟩ <;> first | rfl | exact absurd e (by decide)

/-- the published kind of a column is that of its type -/
theorem kindOf_iff {o n : String} {k : Kind} : KindOf o n k ↔
    ∃ ts t, (o, ts) ∈ structureTypes ∧ typeOf ts n = some t ∧ t.sized ∧ k = kindOf t := by
  constructor
  · rintro ⟨ks, hk, l, hl, hn⟩
    obtain ⟨ts, hts, ha⟩ := kinds_types hk
    obtain ⟨t, ht⟩ := typeOf_some (ha.of _ hl n hn)
    have hm := typeOf_mem ht
    exact ⟨ts, t, hts, ht, ha.sized _ hm, ha.kind _ hm _ hl hn⟩
  · rintro ⟨ts, t, hts, ht, _, rfl⟩
    obtain ⟨ks, hk, ha⟩ := structure_agree hts
    have hm := typeOf_mem ht
    obtain ⟨l, hl, hn⟩ := ha.all _ hm
    refine ⟨ks, hk, l.1, ?_, hn⟩
    rw [← ha.kind _ hm _ hl hn]
    exact hl

theorem listed_get {g : Frame} {n : String} {c : Column} (h : Dict.get? (listed g) n = some c) : ∃ ys, c = .list ys ∧ (n, ys) ∈ g := by
  have hm := Dict.get?_some_mem h
  unfold listed at hm
  obtain ⟨p, hp, e⟩ := List.mem_map.mp hm
  cases e
  exact ⟨p.2, rfl, hp⟩

/-- the columns of a saved result are kept by their types -/
theorem saved_column {ts : List (String × DType)} {ks : List (List String × Kind)} (ha : Agree ts ks) {f g g' : Frame}
    (h : castAvailable ts f = .ok g) (hr : List.Forall₂ (fun a b : String × List Cell => b.1 = a.1 ∧ b.2.Sublist a.2) g g')
    {n : String} {t : DType} {c : Column} (ht : typeOf ts n = some t) (hc : Dict.get? (listed g') n = some c) :
    ∃ ys, c = .list ys ∧ columnSeries t c = .ok (.series t ys) := by
  obtain ⟨ys, rfl, hm⟩ := listed_get hc
  refine ⟨ys, rfl, ?_⟩
  obtain ⟨q, hq, e1, hs⟩ := forall₂_mem_right hr _ hm
  rw [castAvailable_eq] at h
  have hn : ((ts.filter (fun t => (names f).contains t.1)).map Prod.fst).Nodup := (List.filter_sublist.map _).nodup ha.nodup
  obtain ⟨p, hp, e2, h1, _⟩ := forall₂_mem_right (castAll_ok hn h) q hq
  have hpn : p.1 = n := by rw [← e2]; exact e1.symm
  have hmem : p.1 ∈ names f := List.mem_map_of_mem (f := Prod.fst) hp
  have h2 := castColumn_ok (h1 t (by rw [typeOf_filter ts f p.1 hmem, hpn]; exact ht))
  have hk : seriesCells t ys = .ok ys := by
    refine seriesCells_fix (fun y hy => ?_)
    obtain ⟨x, _, hx⟩ := forall₂_mem_right h2 y (hs.subset hy)
    exact series_fix (castCell_again hx)
  simp only [columnSeries, hk]

/-- loading keeps objects, columns and their order -/
theorem load_names {d d' : Doc} (h : load d = .ok d') : SameNames d d' := by
  have hl := loadAll_ok structureNames_nodup h
  refine ⟨hl.keys, hl.null, ?_⟩
  intro o cols hg
  by_cases ho : o ∈ structureTypes.map Prod.fst
  · obtain ⟨⟨o', ts⟩, hm, e⟩ := List.mem_map.mp ho
    cases e
    obtain ⟨cols', h1, h2⟩ := hl.cast o' ts cols hm hg
    obtain ⟨ks, _, ha⟩ := structure_agree hm
    exact ⟨cols', h2, (loadObject_ok ha.nodup h1).keys⟩
  · exact ⟨cols, by rw [hl.other o ho]; exact hg, rfl⟩

/-- what loading does to one column -/
theorem load_column {d d' : Doc} (h : load d = .ok d') {o n : String} {c : Column} (hc : Holds d o n c) :
    ((∀ k, ¬KindOf o n k) → Holds d' o n c) ∧
      ∀ ts t, (o, ts) ∈ structureTypes → typeOf ts n = some t → ∃ c', columnSeries t c = .ok c' ∧ Holds d' o n c' := by
  obtain ⟨cols, hg, hn⟩ := hc
  have hl := loadAll_ok structureNames_nodup h
  constructor
  · intro hk
    by_cases ho : o ∈ structureTypes.map Prod.fst
    · obtain ⟨⟨o', ts⟩, hm, e⟩ := List.mem_map.mp ho
      cases e
      obtain ⟨cols', h1, h2⟩ := hl.cast o' ts cols hm hg
      obtain ⟨ks, _, ha⟩ := structure_agree hm
      refine ⟨cols', h2, ?_⟩
      rw [(loadObject_ok ha.nodup h1).other n ?_]
      · exact hn
      · by_contra hc
        obtain ⟨t, ht⟩ := Option.ne_none_iff_exists'.mp hc
        exact hk _ (kindOf_iff.mpr ⟨ts, t, hm, ht, ha.sized _ (typeOf_mem ht), rfl⟩)
    · exact ⟨cols, by rw [hl.other o ho]; exact hg, hn⟩
  · intro ts t hm ht
    obtain ⟨cols', h1, h2⟩ := hl.cast o ts cols hm hg
    obtain ⟨ks, _, ha⟩ := structure_agree hm
    obtain ⟨c', h3, h4⟩ := (loadObject_ok ha.nodup h1).cast n t c ht hn
    exact ⟨c', h3, cols', h2, h4⟩

end Beep.LoadCasts
