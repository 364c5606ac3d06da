import Verif.Proof.LoadCasts
/-
C176: saving a structured result and loading it again gives the numbers that were structured, and
what loading does to a dictionary that comes from elsewhere.
C177: loading leaves the dictionary it is given as it is.
-/
namespace Beep.LoadCasts
open Beep Beep.Casts Beep.Spec.Casts Beep.Spec.LoadCasts

/-- C176: a saved result of structuring is never refused, and what is loaded has the very numbers,
names and order that were saved. -/
theorem C176_saved {d : Doc} (hs : SavedResult d) : ∃ d', load d = .ok d' ∧ SameNumbers d d' := by
  have hok : ∃ d', load d = .ok d' := by
    refine (loadAll_ok_iff structureNames_nodup d).mpr (fun o ts cols hm hg => ?_)
    obtain ⟨ks, _, ha⟩ := structure_agree hm
    refine (loadObject_ok_iff ha.nodup cols).mpr (fun n t c ht hc => ?_)
    obtain ⟨ts', f, g, g', hm', hcast, _, hr, rfl⟩ := hs o cols hg
    cases types_unique hm hm'
    obtain ⟨ys, _, h⟩ := saved_column ha hcast hr ht hc
    exact ⟨_, h⟩
  obtain ⟨d', h⟩ := hok
  refine ⟨d', h, load_names h, ?_⟩
  intro o n c hc
  by_cases hk : ∀ k, ¬KindOf o n k
  · exact ⟨c, (load_column h hc).1 hk, rfl⟩
  · push Not at hk
    obtain ⟨k, hk⟩ := hk
    obtain ⟨ts, t, hm, ht, _, _⟩ := kindOf_iff.mp hk
    obtain ⟨c', h1, h2⟩ := (load_column h hc).2 ts t hm ht
    refine ⟨c', h2, ?_⟩
    obtain ⟨cols, hg, hn⟩ := hc
    obtain ⟨ks, _, ha⟩ := structure_agree hm
    obtain ⟨ts', f, g, g', hm', hcast, _, hr, rfl⟩ := hs o cols hg
    cases types_unique hm hm'
    obtain ⟨ys, rfl, h3⟩ := saved_column ha hcast hr ht hn
    rw [h3] at h1
    cases h1
    rfl

/-- C176: loading what was loaded changes nothing more. -/
theorem C176_again {d d' : Doc} (h : load d = .ok d') : load d' = .ok d' := by
  have hl := loadAll_ok structureNames_nodup h
  refine loadAll_fix (fun o ts cols hm hg => ?_)
  obtain ⟨ks, _, ha⟩ := structure_agree hm
  cases e : Dict.get? d o with
  | none => rw [hl.absent o e] at hg; cases hg
  | some x =>
    cases x with
    | none => rw [hl.null o e] at hg; cases hg
    | some cols₀ =>
      obtain ⟨cols', h1, h2⟩ := hl.cast o ts cols₀ hm e
      rw [h2] at hg; cases hg
      exact loadObject_again ha.nodup h1

/-- C176: a dictionary read from a JSON file is refused exactly when a published column has a value
that its kind does not take. -/
theorem C176_accepts {d : Doc} (hp : Plain d) :
    (∃ d', load d = .ok d') ↔ ∀ o n k xs, KindOf o n k → Holds d o n (.list xs) → ∀ x ∈ xs, Takes k x := by
  constructor
  · rintro ⟨d', h⟩ o n k xs hk hc
    obtain ⟨ts, t, hm, ht, hsz, rfl⟩ := kindOf_iff.mp hk
    obtain ⟨c', h1, _⟩ := (load_column h hc).2 ts t hm ht
    refine (seriesCells_ok_iff t hsz xs).mp ?_
    simp only [columnSeries] at h1
    split at h1
    · cases h1
    · next ys hys => exact ⟨ys, hys⟩
  · intro h
    refine (loadAll_ok_iff structureNames_nodup d).mpr (fun o ts cols hm hg => ?_)
    obtain ⟨ks, _, ha⟩ := structure_agree hm
    refine (loadObject_ok_iff ha.nodup cols).mpr (fun n t c ht hc => ?_)
    rcases hp o n c ⟨cols, hg, hc⟩ with rfl | ⟨xs, rfl⟩
    · exact ⟨.null, rfl⟩
    · have hsz := ha.sized _ (typeOf_mem ht)
      have hk : KindOf o n (kindOf t) := kindOf_iff.mpr ⟨ts, t, hm, ht, hsz, rfl⟩
      obtain ⟨ys, hys⟩ := (seriesCells_ok_iff t hsz xs).mpr (h o n _ xs hk ⟨cols, hg, hc⟩)
      exact ⟨.series t ys, by simp only [columnSeries, hys]⟩

/-- C176: what is loaded from a JSON file: names and order stay, columns of no published kind stay,
and every value of the others is the nearest one of its kind (whole numbers are exact, see
`C144_signed_exact`: a kind takes only those it holds). -/
theorem C176_values {d d' : Doc} (h : load d = .ok d') :
    SameNames d d' ∧
    ∀ o n xs, Holds d o n (.list xs) →
      ((∀ k, ¬KindOf o n k) → Holds d' o n (.list xs)) ∧
      ∀ k, KindOf o n k → ∃ c ys, Holds d' o n c ∧ values c = some ys ∧
        List.Forall₂ (fun x y => Takes k x ∧ Stored k x y) xs ys := by
  refine ⟨load_names h, fun o n xs hc => ⟨(load_column h hc).1, ?_⟩⟩
  intro k hk
  obtain ⟨ts, t, hm, ht, hsz, rfl⟩ := kindOf_iff.mp hk
  obtain ⟨c', h1, h2⟩ := (load_column h hc).2 ts t hm ht
  simp only [columnSeries] at h1
  split at h1
  · cases h1
  · next ys hys =>
    cases h1
    exact ⟨_, ys, h2, rfl, (seriesCells_ok hys).imp
      (fun x y hxy => ⟨(series_takes t hsz x).mp ⟨y, hxy⟩, castCell_stored t hsz x y (series_cast hxy)⟩)⟩

/-- C177 fails: whenever the dictionary given to a load has a list under a published column, that
list is gone afterwards; a series is in its place. -/
theorem C177_unchanged_violated {d d' : Doc} (h : load d = .ok d') {o n : String} {k : Kind} {xs : List Cell}
    (hk : KindOf o n k) (hc : Holds d o n (.list xs)) :
    (∃ t ys, Holds d' o n (.series t ys)) ∧ ¬Holds d' o n (.list xs) ∧ d' ≠ d := by
  obtain ⟨ts, t, hm, ht, hsz, rfl⟩ := kindOf_iff.mp hk
  obtain ⟨c', h1, h2⟩ := (load_column h hc).2 ts t hm ht
  simp only [columnSeries] at h1
  split at h1
  · cases h1
  · next ys hys =>
    cases h1
    have hno : ¬Holds d' o n (.list xs) := by
      rintro ⟨cols, hg, hn⟩
      obtain ⟨cols', hg', hn'⟩ := h2
      rw [hg] at hg'; cases hg'
      rw [hn] at hn'; cases hn'
    refine ⟨⟨t, ys, h2⟩, hno, ?_⟩
    rintro rfl
    exact hno hc

/-- C177, what is true: objects, columns and their order stay; so do columns of no published kind and
columns without value; and a dictionary that was loaded before is left entirely as it is. -/
theorem C177_unchanged_partial {d d' : Doc} (h : load d = .ok d') :
    SameNames d d' ∧
    (∀ o n c, Holds d o n c → ((∀ k, ¬KindOf o n k) ∨ c = .null) → Holds d' o n c) ∧
    ∀ d₀, load d₀ = .ok d → d' = d := by
  refine ⟨load_names h, ?_, ?_⟩
  · rintro o n c hc (hk | rfl)
    · exact (load_column h hc).1 hk
    · by_cases hk : ∀ k, ¬KindOf o n k
      · exact (load_column h hc).1 hk
      · push Not at hk
        obtain ⟨k, hk⟩ := hk
        obtain ⟨ts, t, hm, ht, _, _⟩ := kindOf_iff.mp hk
        obtain ⟨c', h1, h2⟩ := (load_column h hc).2 ts t hm ht
        cases h1
        exact h2
  · intro d₀ h0
    have := C176_again h0
    rw [h] at this
    cases this
    rfl

/-! ### The hypotheses can be met -/

/-- a summary as structuring casts it: one tenth in single precision, a whole number, a text, a gap -/
def exSummary : Frame :=
  [("cycle_index", [.num 0, .num 1]), ("energy_efficiency", [.num (1 / 10), .nan]), ("date_time_iso", [.text "a", .text "b"]),
   ("other", [.num (1 / 3), .num 7])]

/-- its saved form -/
def exDoc (g : Frame) : Doc := [("summary", some (listed g)), ("diagnostic_summary", none)]

-- casting, saving and loading: the tenth is rounded by the cast of structuring, and not again
example : (match castAvailable summaryTypes exSummary with
    | .ok g => (match load (exDoc g) with
        | .ok d => some ((g.map Prod.snd)[1]?, ((Dict.get? d "summary").bind id).bind (fun c => Dict.get? c "energy_efficiency"))
        | .error _ => none)
    | .error _ => none) =
    some (some [.num (13421773 / 134217728), .nan], some (.series .float32 [.num (13421773 / 134217728), .nan])) := by
  decide +kernel

/-- what its cast gives -/
def exCast : Frame :=
  [("cycle_index", [.num 0, .num 1]), ("energy_efficiency", [.num (13421773 / 134217728), .nan]),
   ("date_time_iso", [.text "a", .text "b"]), ("other", [.num (1 / 3), .num 7])]

theorem exCast_eq : castAvailable summaryTypes exSummary = .ok exCast := by decide +kernel

theorem exDoc_get (g : Frame) {o : String} {cols : Dict String Column} (h : Dict.get? (exDoc g) o = some (some cols)) :
    o = "summary" ∧ cols = listed g := by
  unfold exDoc at h
  rw [Dict.get?] at h
  split at h
  · next e => cases h; exact ⟨e.symm, rfl⟩
  · rw [Dict.get?] at h
    split at h
    · cases h
    · cases h

example : SavedResult (exDoc exCast) ∧ exCast ≠ exSummary := by
  refine ⟨?_, by decide +kernel⟩
  intro o cols h
  obtain ⟨rfl, rfl⟩ := exDoc_get _ h
  exact ⟨summaryTypes, exSummary, exCast, exCast, by simp [structureTypes], exCast_eq, by decide +kernel,
    List.forall₂_same.mpr (fun p _ => ⟨rfl, List.Sublist.refl _⟩), rfl⟩

-- a document from elsewhere: a fraction, a number out of range and a gap in a column of whole numbers are refused, so is a
-- text among numbers; a number that structuring never gives is rounded
example : load [("summary", some [("cycle_index", .list [.num (3 / 2)])])] = .error .valueError ∧
    load [("summary", some [("cycle_index", .list [.num (2 ^ 31)])])] = .error .valueError ∧
    load [("summary", some [("paused", .list [.nan])])] = .error .valueError ∧
    load [("summary", some [("charge_capacity", .list [.text "1"])])] = .error .valueError ∧
    load [("summary", some [("CV_time", .list [.num (1 / 10)])]), ("x", none)] =
      .ok [("summary", some [("CV_time", .series .float32 [.num (13421773 / 134217728)])]), ("x", none)] :=
  ⟨by decide +kernel, by decide +kernel, by decide +kernel, by decide +kernel, by decide +kernel⟩

example : KindOf "summary" "cycle_index" (.signed 32) ∧ Takes (.signed 32) (.num ((2 ^ 31 - 1 : Int) : Rat)) ∧
    ¬Takes (.signed 32) (.num ((2 ^ 31 : Int) : Rat)) := by
  refine ⟨⟨summaryKinds, by simp [kinds], _, List.mem_cons_self .., by simp⟩, ⟨_, rfl, by decide, by decide⟩, ?_⟩
  rintro ⟨n, e, _, h⟩
  simp only [Cell.num.injEq, Int.cast_inj] at e
  omega

-- the dictionary of the caller has changed
example : Plain [("summary", some [("cycle_index", .list [.num 1]), ("paused", .null)])] := by
  rintro o n c ⟨cols, h, hn⟩
  simp only [Dict.get?] at h
  split at h
  · cases h
    simp only [Dict.get?] at hn
    split at hn
    · cases hn; exact .inr ⟨_, rfl⟩
    · split at hn
      · cases hn; exact .inl rfl
      · cases hn
  · cases h

example : load [("summary", some [("cycle_index", .list [.num 1]), ("paused", .null)])] =
    .ok [("summary", some [("cycle_index", .series (.int 32) [.num 1]), ("paused", .null)])] := by decide +kernel

end Beep.LoadCasts
