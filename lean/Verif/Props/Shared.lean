import Verif.Proof.Base
import Verif.Proof.Py
import Verif.Spec.Shared
import Verif.Props.Construct
import Verif.Props.Interp
/-
C169: raw tables given to datapaths.  C170: the recorded structuring parameters.
-/
namespace Beep.Props.Shared
open Beep Beep.Shared Beep.Spec.Shared
open Beep.Datapath (Frame Val impute imputeCol imputable)

theorem Kept.refl (f : Frame) : Kept f f := ⟨rfl, fun _ _ _ h => h, fun _ h h' => absurd h h'⟩

theorem Kept.trans {f g h : Frame} (a : Kept f g) (b : Kept g h) : Kept f h := by
  refine ⟨b.1.trans a.1, fun c v hc e => b.2.1 c v hc (a.2.1 c v hc e), ?_⟩
  intro c e e'
  by_cases hg : g.cols.get? c = none
  · exact b.2.2 c hg e'
  · exact a.2.2 c e hg

theorem kept_set (f : Frame) (k : String) (v : List Val) (hm : k ∈ mayBeAdded)
    (hk : k = "time_since_cycle_start" ∨ f.cols.get? k = none) : Kept f { f with cols := f.cols.set k v } := by
  refine ⟨rfl, ?_, ?_⟩
  · intro c w hc e
    have : c ≠ k := by
      rintro rfl
      rcases hk with h | h
      · exact hc h
      · rw [h] at e; cases e
    rw [Dict.get?_set_ne _ _ this]
    exact e
  · intro c e e'
    by_cases h : c = k
    · rw [h]; exact hm
    · rw [Dict.get?_set_ne _ _ h] at e'
      exact absurd e e'

theorem kept_imputeCol (f : Frame) (c : String) (hc : c ∈ imputable) : Kept f (imputeCol f c) := by
  unfold imputeCol
  split
  · exact Kept.refl f
  · rename_i h
    refine kept_set f c _ ?_ (.inr ?_)
    · simp only [imputable, List.mem_cons, List.not_mem_nil, or_false] at hc
      rcases hc with rfl | rfl <;> simp [mayBeAdded]
    · unfold Dict.has at h
      cases e : f.cols.get? c with
      | none => rfl
      | some v => simp [e] at h

theorem kept_impute (f : Frame) : Kept f (impute f) := by
  unfold impute imputable
  simp only [List.foldl_cons, List.foldl_nil]
  exact Kept.trans (kept_imputeCol f "temperature" (by simp [imputable]))
    (kept_imputeCol _ "internal_resistance" (by simp [imputable]))

theorem kept_addMinutes (m : Minutes) (f : Frame) : Kept f (addMinutes m f) :=
  kept_set f _ _ (by simp [mayBeAdded]) (.inl rfl)

theorem kept_change (σ : State) (t : Nat) (g : Frame → Frame) (hg : ∀ f, Kept f (g f)) (u : Nat) (f : Frame)
    (h : σ.tables[u]? = some f) : ∃ f', (change σ t g).tables[u]? = some f' ∧ Kept f f' := by
  unfold change
  simp only [List.getElem?_modify]
  by_cases e : t = u
  · exact ⟨g f, by simp [e, h], hg f⟩
  · exact ⟨f, by simp [e, h], Kept.refl f⟩

theorem kept_step (m : Minutes) (σ : State) (o : Op) (u : Nat) (f : Frame) (h : σ.tables[u]? = some f) :
    ∃ f', (step m σ o).tables[u]? = some f' ∧ Kept f f' := by
  cases o with
  | construct t im =>
    cases im with
    | true => exact kept_change σ t impute kept_impute u f h
    | false => exact ⟨f, h, Kept.refl f⟩
  | load c =>
    refine ⟨f, ?_, Kept.refl f⟩
    have hlt := (List.getElem?_eq_some_iff.mp h).1
    simp only [step]
    rw [List.getElem?_append_left hlt, h]
  | structure_ i r =>
    simp only [step]
    split
    · split
      · exact kept_change σ _ _ (kept_addMinutes m) u f h
      · exact ⟨f, h, Kept.refl f⟩
    · exact ⟨f, h, Kept.refl f⟩
  | other i => exact ⟨f, h, Kept.refl f⟩

/-- C169 (partial: columns are added).  Whatever is done with whatever datapaths, no raw table loses
a row or a column and no value in it changes; the only columns that can be new are those imputed and
the minutes of the cycle. -/
theorem C169_kept_partial (m : Minutes) (σ : State) (ops : List Op) (t : Nat) (f : Frame)
    (h : σ.tables[t]? = some f) : ∃ f', (run m σ ops).tables[t]? = some f' ∧ Kept f f' := by
  induction ops generalizing σ f with
  | nil => exact ⟨f, h, Kept.refl f⟩
  | cons o ops ih =>
    obtain ⟨g, hg, k1⟩ := kept_step m σ o t f h
    obtain ⟨f', hf, k2⟩ := ih (step m σ o) g hg
    exact ⟨f', hf, Kept.trans k1 k2⟩

/-- C169: a table from which no datapath was or is constructed is not touched at all, in particular
by datapaths that were loaded from a file. -/
theorem C169_separate (m : Minutes) (σ : State) (ops : List Op) (t : Nat) (f : Frame)
    (h : σ.tables[t]? = some f) (ho : t ∉ σ.objs) (hu : ∀ o ∈ ops, ¬ Uses t o) :
    (run m σ ops).tables[t]? = some f := by
  induction ops generalizing σ with
  | nil => exact h
  | cons o ops ih =>
    have hlt := (List.getElem?_eq_some_iff.mp h).1
    have hs : (step m σ o).tables[t]? = some f ∧ t ∉ (step m σ o).objs := by
      cases o with
      | construct t' im =>
        have hne : t' ≠ t := hu (.construct t' im) (by simp)
        cases im <;> simp [step, change, hne, h, ho, Ne.symm hne]
      | load c =>
        simp only [step]
        rw [List.getElem?_append_left hlt]
        refine ⟨h, ?_⟩
        simp only [List.mem_append, List.mem_cons, List.not_mem_nil, or_false, not_or]
        exact ⟨ho, by omega⟩
      | structure_ i r =>
        simp only [step]
        split
        · rename_i t' ht
          have hne : t' ≠ t := by
            rintro rfl
            exact ho (List.mem_of_getElem? ht)
          split
          · exact ⟨by simp [change, hne, h], ho⟩
          · exact ⟨h, ho⟩
        · exact ⟨h, ho⟩
      | other i => exact ⟨h, ho⟩
    exact ih (step m σ o) hs.1 hs.2 (fun o' ho' => hu o' (List.mem_cons_of_mem _ ho'))

theorem set_idem {κ ν : Type} [DecidableEq κ] (d : Dict κ ν) (k : κ) (v : ν) : (d.set k v).set k v = d.set k v := by
  induction d with
  | nil => simp [Dict.set]
  | cons p d ih =>
    obtain ⟨a, b⟩ := p
    simp only [Dict.set]
    split
    · simp [Dict.set]
    · rename_i h; simp [Dict.set, h, ih]

theorem addMinutes_idem (m : Minutes) (f : Frame) : addMinutes m (addMinutes m f) = addMinutes m f := by
  unfold addMinutes
  simp only [Dict.get?_set_ne _ _ (show "cycle_index" ≠ "time_since_cycle_start" by decide),
    Dict.get?_set_ne _ _ (show "date_time_iso" ≠ "time_since_cycle_start" by decide), set_idem]

theorem modify_modify (l : List Frame) (t : Nat) (g : Frame → Frame) (hg : ∀ f, g (g f) = g f) :
    (l.modify t g).modify t g = l.modify t g := by
  apply List.ext_getElem?
  intro i
  simp only [List.getElem?_modify]
  split
  · cases l[i]? <;> simp [hg]
  · cases l[i]? <;> rfl

/-- C169: structuring once more leaves the raw table as it was after the first time. -/
theorem C169_again (m : Minutes) (σ : State) (i : Nat) (r : Bool) :
    run m σ [.structure_ i true, .structure_ i r] = run m σ [.structure_ i true] := by
  simp only [run, List.foldl_cons, List.foldl_nil, step]
  cases h : σ.objs[i]? with
  | none => simp [h]
  | some t =>
    simp only [if_true]
    have : (change σ t (addMinutes m)).objs[i]? = some t := h
    simp only [this]
    split
    · unfold change
      simp only [modify_modify _ t _ (addMinutes_idem m)]
    · rfl

/-- C169 fails: constructing a datapath adds the missing columns to the caller's own table. -/
theorem C169_construct_violated (m : Minutes) (σ : State) (t : Nat) (f : Frame) (h : σ.tables[t]? = some f)
    (hf : f.cols.get? "temperature" = none) :
    ∃ g, (run m σ [.construct t true]).tables[t]? = some g ∧ g ≠ f ∧
      g.cols.get? "temperature" = some (f.index.map fun _ => Val.nan) := by
  refine ⟨impute f, ?_, ?_, ?_⟩
  · simp [run, step, change, h]
  · intro e
    have : (impute f).cols.get? "temperature" = some (f.index.map fun _ => Val.nan) := by
      simp [impute, imputable, imputeCol, Dict.has, hf, Dict.get?_set]
      split <;> simp [Dict.get?_set]
    rw [e, hf] at this
    cases this
  · simp [impute, imputable, imputeCol, Dict.has, hf, Dict.get?_set]
    split <;> simp [Dict.get?_set]

/-- C169 fails: structuring one datapath changes the raw data of another one made from the same
table, which was not structured at all. -/
theorem C169_shared_violated (m : Minutes) (σ : State) (i j t : Nat) (f : Frame) (h : σ.tables[t]? = some f)
    (hi : σ.objs[i]? = some t) (hj : σ.objs[j]? = some t) (hf : f.cols.get? "time_since_cycle_start" = none) :
    (run m σ [.structure_ i true]).objs[j]? = some t ∧
    ∃ g, (run m σ [.structure_ i true]).tables[t]? = some g ∧ g ≠ f ∧
      g.cols.get? "time_since_cycle_start" ≠ none := by
  have e : run m σ [.structure_ i true] = change σ t (addMinutes m) := by
    simp [run, step, hi]
  rw [e]
  have hget : (addMinutes m f).cols.get? "time_since_cycle_start" ≠ none := by
    simp [addMinutes, Dict.get?_set]
  refine ⟨hj, addMinutes m f, ?_, ?_, hget⟩
  · simp [change, h]
  · intro e'
    rw [e', hf] at hget
    exact hget rfl

/-- a table without temperature, from which two datapaths are made -/
def demo : State := ⟨[⟨[0, 1], [("cycle_index", [.num 0, .num 0]), ("date_time_iso", [.str "a", .str "b"])]⟩], []⟩

example : ((run (fun _ _ => [.num 0, .num 1]) demo
      [.construct 0 true, .construct 0 true, .structure_ 0 true]).tables.map (fun f => f.cols.keys),
    (run (fun _ _ => [.num 0, .num 1]) demo
      [.construct 0 true, .construct 0 true, .structure_ 0 true]).objs) =
    ([["cycle_index", "date_time_iso", "temperature", "internal_resistance", "time_since_cycle_start"]], [0, 0]) := by
  decide +kernel

/-- loading a file makes its own table -/
example : (run (fun _ _ => []) demo [.load [("cycle_index", [.num 0])], .structure_ 0 true]).tables[0]? =
    demo.tables[0]? := by decide +kernel

/-! ### C170 -/

theorem contains_same {a b : List Int} (h : SameCycles a b) (c : Int) : a.contains c = b.contains c := by
  rw [Bool.eq_iff_iff, List.contains_iff_mem, List.contains_iff_mem]
  exact h c

theorem interpolateStep_same (raw : List Steps.Row) (indet : Bool) (v : Rat × Rat) (n : Nat) (st : String)
    (reg : List Int) (axis : String) {a b : List Int} (h : SameCycles a b) :
    Interp.interpolateStep raw indet v n st reg axis a = Interp.interpolateStep raw indet v n st reg axis b := by
  unfold Interp.interpolateStep Interp.cycleIndices
  simp only [contains_same h]

/-- C170 (partial: `exclude_cycles` is not recorded).  Two calls of `structure` that record the same
parameters and leave out the same cycles give the same interpolated cycles and agree in the arguments
of the summary and of the diagnostic cycles. -/
theorem C170_reproduced_partial (a b : Args) (h : recorded a = recorded b) (he : SameCycles a.exclude b.exclude)
    (raw : List CyclesInterp.WfRow) (hasWf indet : Bool) (diag : Option (List Int)) :
    cyclesOf a raw hasWf indet diag = cyclesOf b raw hasWf indet diag ∧
    a.nominal = b.nominal ∧ a.fullFast = b.fullFast ∧ a.diagResolution = b.diagResolution := by
  simp only [recorded, List.cons.injEq, Prod.mk.injEq, true_and, Rec.range.injEq, Rec.count.injEq, Rec.num.injEq,
    Rec.str.injEq, and_true] at h
  obtain ⟨h1, h2, h3, h4, h5, h6, h7⟩ := h
  refine ⟨?_, h4, h5, h3⟩
  unfold cyclesOf CyclesInterp.structuredCycles Interp.interpolateCycles
  rw [h1, h2, h6, h7]
  simp only [interpolateStep_same _ _ _ _ _ _ _ he]

/-- C170: `structure()` without arguments works with the documented values and records them. -/
theorem C170_standard : argsOf [] = .ok standard ∧
    recorded standard = [("v_range", .range none), ("resolution", .count 1000),
      ("diagnostic_resolution", .count 500), ("nominal_capacity", .num (11 / 10)),
      ("full_fast_charge", .num (4 / 5)), ("charge_axis", .str "charge_capacity"),
      ("discharge_axis", .str "voltage")] := by
  decide +kernel

/-- a keyword given once sets its argument -/
theorem field_foldl (name : String) (g : Args → Rec)
    (hset : ∀ a b p, bindOne a p = .ok b → (p.1 = name → g b = p.2) ∧ (p.1 ≠ name → g b = g a))
    (kw : Dict String Rec) (hn : kw.keys.Nodup) (a b : Args) (h : kw.foldlM bindOne a = .ok b) :
    kw.get? name = some (g b) ∨ (kw.get? name = none ∧ g b = g a) := by
  induction kw generalizing a with
  | nil => cases h; exact .inr ⟨rfl, rfl⟩
  | cons p kw ih =>
    simp only [List.foldlM_cons, bind, Except.bind] at h
    split at h
    · cases h
    rename_i c hc
    have hn' := List.nodup_cons.mp hn
    obtain ⟨h1, h2⟩ := hset a c p hc
    have := ih hn'.2 c h
    by_cases hp : p.1 = name
    · left
      rcases this with hg | ⟨-, hg⟩
      · exfalso
        apply hn'.1
        rw [hp]
        exact List.mem_map.mpr ⟨_, Dict.get?_some_mem hg, rfl⟩
      · rw [hg, h1 hp]
        simp [Dict.get?, hp]
    · have hk : Dict.get? (p :: kw) name = Dict.get? kw name := by
        simp [Dict.get?, hp]
      rw [hk, ← h2 hp]
      exact this

/-- C170: an accepted call works with the values given by name, and the documented ones otherwise. -/
theorem C170_given (kw : Dict String Rec) (hn : kw.keys.Nodup) (a : Args) (h : argsOf kw = .ok a) : Given kw a := by
  have hd : ({} : Args) = standard := by decide +kernel
  unfold argsOf at h
  rw [hd] at h
  refine ⟨?_, ?_, ?_, ?_, ?_, ?_, ?_, ?_⟩
  · exact field_foldl "v_range" (fun a => .range a.vRange) (by
      intro a b p hb
      unfold bindOne at hb
      split at hb <;> first | (cases hb; done) | (cases hb; simp)) kw hn standard a h
  · exact field_foldl "resolution" (fun a => .count a.resolution) (by
      intro a b p hb
      unfold bindOne at hb
      split at hb <;> first | (cases hb; done) | (cases hb; simp)) kw hn standard a h
  · exact field_foldl "diagnostic_resolution" (fun a => .count a.diagResolution) (by
      intro a b p hb
      unfold bindOne at hb
      split at hb <;> first | (cases hb; done) | (cases hb; simp)) kw hn standard a h
  · exact field_foldl "nominal_capacity" (fun a => .num a.nominal) (by
      intro a b p hb
      unfold bindOne at hb
      split at hb <;> first | (cases hb; done) | (cases hb; simp)) kw hn standard a h
  · exact field_foldl "full_fast_charge" (fun a => .num a.fullFast) (by
      intro a b p hb
      unfold bindOne at hb
      split at hb <;> first | (cases hb; done) | (cases hb; simp)) kw hn standard a h
  · exact field_foldl "charge_axis" (fun a => .str a.chargeAxis) (by
      intro a b p hb
      unfold bindOne at hb
      split at hb <;> first | (cases hb; done) | (cases hb; simp)) kw hn standard a h
  · exact field_foldl "discharge_axis" (fun a => .str a.dischargeAxis) (by
      intro a b p hb
      unfold bindOne at hb
      split at hb <;> first | (cases hb; done) | (cases hb; simp)) kw hn standard a h
  · have : ∀ (kw : Dict String Rec) (a b : Args), kw.foldlM bindOne a = .ok b → b.exclude = a.exclude := by
      intro kw
      induction kw with
      | nil => intro a b h; cases h; rfl
      | cons p kw ih =>
        intro a b h
        simp only [List.foldlM_cons, bind, Except.bind] at h
        split at h
        · cases h
        rename_i c hc
        rw [ih c b h]
        unfold bindOne at hc
        split at hc <;> first | (cases hc; done) | (cases hc; rfl)
    exact this kw standard a h

/-- C170 (partial: `exclude_cycles` is not recorded).  The record can be handed to `structure` as its
keyword arguments: the call is accepted, works with the same arguments but leaves no cycle out, and
records the same again; so it gives the same cycles when none was left out. -/
theorem C170_call_again_partial (a : Args) :
    ∃ b, argsOf (recorded a) = .ok b ∧ b = { a with exclude := [] } ∧ Given (recorded a) b ∧
      recorded b = recorded a ∧
      (a.exclude = [] → ∀ raw hasWf indet diag, cyclesOf b raw hasWf indet diag = cyclesOf a raw hasWf indet diag) := by
  refine ⟨{ a with exclude := [] }, rfl, rfl, ?_, rfl, ?_⟩
  · exact ⟨.inl rfl, .inl rfl, .inl rfl, .inl rfl, .inl rfl, .inl rfl, .inl rfl, rfl⟩
  · intro h raw hasWf indet diag
    have : { a with exclude := [] } = a := by cases a; simp only at h; rw [h]
    rw [this]

/-- C170 fails: the cycles that were left out are not recorded.  Whenever a cycle is in the result,
leaving it out gives another result with the same recorded parameters. -/
theorem C170_exclude_violated (a : Args) (raw : List CyclesInterp.WfRow) (hasWf indet : Bool)
    (diag : Option (List Int)) (out : List Interp.OutRow) (h : cyclesOf a raw hasWf indet diag = .ok out)
    (r : Interp.OutRow) (hr : r ∈ out) :
    ∃ b : Args, recorded b = recorded a ∧ cyclesOf b raw hasWf indet diag ≠ cyclesOf a raw hasWf indet diag := by
  refine ⟨{ a with exclude := r.cycle :: a.exclude }, rfl, ?_⟩
  rw [h]
  intro hb
  unfold cyclesOf CyclesInterp.structuredCycles Interp.interpolateCycles at hb
  simp only at hb
  split at hb
  · cases hb
  · rename_i d hd
    split at hb
    · cases hb
    · rename_i c hc
      simp only [Except.ok.injEq] at hb
      rw [← hb] at hr
      rcases List.mem_append.mp hr with hm | hm
      · exact (Props.Interp.C12_only_requested _ _ _ _ _ _ _ _ _ hd r hm).2.1 (by simp)
      · exact (Props.Interp.C12_only_requested _ _ _ _ _ _ _ _ _ hc r hm).2.1 (by simp)

/-- two cycles with a discharge each; the second is left out by one of two calls with the same record -/
def two : List CyclesInterp.WfRow :=
  [({ cycle := 1, step := some 1, charge := some 0, discharge := some 0, voltage := some 3 }, false),
   ({ cycle := 1, step := some 1, charge := some 0, discharge := some 1, voltage := some (29/10) }, false),
   ({ cycle := 1, step := some 1, charge := some 0, discharge := some 2, voltage := some (28/10) }, false),
   ({ cycle := 2, step := some 1, charge := some 0, discharge := some 0, voltage := some 3 }, false),
   ({ cycle := 2, step := some 1, charge := some 0, discharge := some 1, voltage := some (29/10) }, false),
   ({ cycle := 2, step := some 1, charge := some 0, discharge := some 2, voltage := some (28/10) }, false)]

example : argsOf (recorded { resolution := 7, chargeAxis := "voltage", exclude := [3] }) =
    .ok { resolution := 7, chargeAxis := "voltage" } ∧
    argsOf [("cutoff", .count 3)] = .error .typeError := by decide +kernel

example : ((cyclesOf { resolution := 2 } two false true none).toOption.map fun l => l.map fun r => r.cycle) =
      some [1, 1, 2, 2] ∧
    ((cyclesOf { resolution := 2, exclude := [2] } two false true none).toOption.map fun l => l.map fun r => r.cycle) =
      some [1, 1] := by decide +kernel

end Beep.Props.Shared
