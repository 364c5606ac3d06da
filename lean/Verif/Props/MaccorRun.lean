import Verif.Spec.MaccorRun
import Verif.Props.MaccorQuantity
import Verif.Props.Summary
/-
C159: the summary of a Maccor run reports what the steps of each cycle charged and discharged.
-/
namespace Beep.Props.MaccorRun
open Beep Beep.Maccor Beep.MaccorRun Beep.Spec.Maccor Beep.Spec.MaccorRun Beep.Props.MaccorQuantity

theorem rows_get (k : Kind) (file : List Rec) (i : Nat) : (file.map (view k))[i]? = (file[i]?).map (view k) :=
  List.getElem?_map ..

theorem running_reading (k : Kind) (file : List Rec) (i : Nat) (r : Rec) (h : file[i]? = some r) :
    running (file.map (view k)) i = reading file k r := by
  have hw : (∃ x ∈ file.map (view k), x.wfChgCap ≠ none) ↔ HasWaveform file := by
    unfold HasWaveform
    constructor
    · rintro ⟨x, hx, hn⟩
      obtain ⟨y, hy, rfl⟩ := List.mem_map.mp hx
      exact ⟨y, hy, hn⟩
    · rintro ⟨y, hy, hn⟩
      exact ⟨view k y, List.mem_map.mpr ⟨y, hy, rfl⟩, hn⟩
  unfold running
  rw [rows_get, h]
  simp only [Option.map_some]
  have hif : ∀ a b : Rat, (if ∃ x ∈ file.map (view k), x.wfChgCap ≠ none then a else b) =
      if HasWaveform file then a else b := fun a b => if_congr hw rfl rfl
  split <;> rename_i e
  · rw [hif]
    cases k <;> simp only [view, waveformOf, quantityOf, stateCode, reading] at e ⊢ <;>
      by_cases hh : HasWaveform file <;> by_cases h1 : r.state = 'C' <;>
      by_cases h2 : r.state = 'D' <;> simp [hh, e, h1, h2]
  · cases k <;> simp only [view, waveformOf, quantityOf, stateCode, reading] at e ⊢ <;>
      by_cases h1 : r.state = 'C' <;> by_cases h2 : r.state = 'D' <;> simp [e, h1, h2]

theorem completes_iff (k : Kind) (file : List Rec) (ho : Ordinary file) (i : Nat) (a b : Rec) (ha : file[i]? = some a)
    (hb : file[i + 1]? = some b) : Completes (file.map (view k)) i ↔ a.step ≠ b.step := by
  unfold Completes
  rw [rows_get, rows_get, ha, hb]
  constructor
  · rintro ⟨x, y, hx, hy, _, hs⟩
    cases hx; cases hy
    exact hs
  · intro hs
    refine ⟨_, _, rfl, rfl, ?_, hs⟩
    exact decide_eq_true (ho.status a b ⟨i, ha, hb⟩ hs)

theorem cb_succ (k : Kind) (file : List Rec) (ho : Ordinary file) (c : Int) (i : Nat) (a b : Rec)
    (ha : file[i]? = some a) (hb : file[i + 1]? = some b) :
    completedBefore (file.map (view k)) c (i + 1) = completedBefore (file.map (view k)) c i +
      (if a.step ≠ b.step ∧ a.cycle = c then reading file k a else 0) := by
  show _ + _ = _ + _
  congr 1
  have hc : (Option.map Row.cycle (file.map (view k))[i]? = some c) ↔ a.cycle = c := by
    rw [rows_get, ha]; simp [view]
  have := completes_iff k file ho i a b ha hb
  rw [running_reading k file i a ha]
  exact if_congr (and_congr this hc) rfl rfl

theorem cycle_mono (file : List Rec) (ho : Ordinary file) (i j : Nat) (a b : Rec) (hij : i ≤ j) (ha : file[i]? = some a)
    (hb : file[j]? = some b) : a.cycle ≤ b.cycle := by
  induction j generalizing b with
  | zero =>
    have : i = 0 := by omega
    subst this
    rw [ha] at hb; cases hb; exact le_refl _
  | succ j ih =>
    rcases Nat.lt_or_ge i (j + 1) with h | h
    · have hj : j < file.length := by have := (List.getElem?_eq_some_iff.mp hb).1; omega
      exact le_trans (ih _ (by omega) (List.getElem?_eq_getElem hj)) (ho.up _ _ ⟨j, List.getElem?_eq_getElem hj, hb⟩)
    · have : i = j + 1 := by omega
      subst this
      rw [ha] at hb; cases hb; exact le_refl _

theorem regular (k : Kind) (file : List Rec) (ho : Ordinary file) : Regular (file.map (view k)) := by
  constructor
  · intro i j a b hij ha hb
    rw [rows_get] at ha hb
    obtain ⟨x, hx, rfl⟩ := Option.map_eq_some_iff.mp ha
    obtain ⟨y, hy, rfl⟩ := Option.map_eq_some_iff.mp hb
    exact cycle_mono file ho i j x y hij hx hy
  · intro i a b ha hb hc
    rw [rows_get] at ha hb
    obtain ⟨x, hx, rfl⟩ := Option.map_eq_some_iff.mp ha
    obtain ⟨y, hy, rfl⟩ := Option.map_eq_some_iff.mp hb
    exact (completes_iff k file ho i x y hx hy).mpr (ho.begins x y ⟨i, hx, hy⟩ hc)

theorem column_get (k : Kind) (file : List Rec) (ho : Ordinary file) (c : Int) (hu : UnderWay file c) (i : Nat) (r : Rec)
    (hi : file[i]? = some r) (hc : r.cycle = c) :
    (column k file)[i]? = some (reading file k r + completedBefore (file.map (view k)) c i) := by
  have hr : (file.map (view k))[i]? = some (view k r) := by rw [rows_get, hi]; rfl
  have := C20_accumulation_partial (file.map (view k)) (regular k file ho) i (view k r) hr ?_
  · rw [running_reading k file i r hi] at this
    have e : (view k r).cycle = c := hc
    rw [e] at this
    exact this
  · intro e a b hl ha hb
    rw [rows_get] at ha hb
    obtain ⟨x, hx, rfl⟩ := Option.map_eq_some_iff.mp ha
    obtain ⟨y, hy, rfl⟩ := Option.map_eq_some_iff.mp hb
    show i ≤ e ∨ x.cycle = y.cycle
    rcases Nat.lt_or_ge e i with h | h
    · right
      rcases hu with ⟨p, q, ⟨j, hp, hq⟩, hpc, hs⟩ | hall
      · have hj := hl.2 j ((completes_iff k file ho j p q hp hq).mpr hs)
        have h1 := cycle_mono file ho j e p x hj hp hx
        have h2 := ho.up x y ⟨e, hx, hy⟩
        have h3 := cycle_mono file ho (e + 1) i y r h hy hi
        omega
      · rw [hall x (List.mem_of_getElem? hx), hall y (List.mem_of_getElem? hy)]
    · left; exact h

/-- the sum over the rest of the file -/
theorem total_drop (k : Kind) (file : List Rec) (ho : Ordinary file) (c : Int) (n : Nat) :
    ∀ i, i + (n + 1) = file.length → completedBefore (file.map (view k)) c i + total (reading file k) c (file.drop i) =
      completedBefore (file.map (view k)) c (file.length - 1) +
        total (reading file k) c (file.drop (file.length - 1)) := by
  induction n with
  | zero => intro i h; have : i = file.length - 1 := by omega
            rw [this]
  | succ n ih =>
    intro i h
    rw [← ih (i + 1) (by omega)]
    have h1 : i < file.length := by omega
    have h2 : i + 1 < file.length := by omega
    have ha := List.getElem?_eq_getElem h1
    have hb := List.getElem?_eq_getElem h2
    rw [List.drop_eq_getElem_cons h1, List.drop_eq_getElem_cons h2]
    simp only [total]
    rw [cb_succ k file ho c i _ _ ha hb]
    ring

/-- the accumulated value does not fall within a cycle -/
theorem step_up (k : Kind) (file : List Rec) (ho : Ordinary file) (c : Int) (i : Nat) (a b : Rec)
    (ha : file[i]? = some a) (hb : file[i + 1]? = some b) (hac : a.cycle = c) :
    reading file k a + completedBefore (file.map (view k)) c i ≤
      reading file k b + completedBefore (file.map (view k)) c (i + 1) := by
  rw [cb_succ k file ho c i a b ha hb]
  by_cases h : a.step = b.step
  · rw [if_neg (by simp [h])]
    have := ho.counter k a b ⟨i, ha, hb⟩ h
    linarith
  · rw [if_pos ⟨h, hac⟩]
    have := ho.positive k b (List.mem_of_getElem? hb)
    linarith

theorem upTo (k : Kind) (file : List Rec) (ho : Ordinary file) (c : Int) (i : Nat) (a : Rec)
    (ha : file[i]? = some a) (hac : a.cycle = c) (d : Nat) :
    ∀ b, file[i + d]? = some b → b.cycle = c →
    reading file k a + completedBefore (file.map (view k)) c i ≤
      reading file k b + completedBefore (file.map (view k)) c (i + d) := by
  induction d with
  | zero => intro b hb _; rw [Nat.add_zero, ha] at hb; cases hb; exact le_refl _
  | succ d ih =>
    intro b hb hbc
    have hlt : i + d < file.length := by have := (List.getElem?_eq_some_iff.mp hb).1; omega
    have hx := List.getElem?_eq_getElem hlt
    have h1 := cycle_mono file ho i (i + d) _ _ (by omega) ha hx
    have h2 := ho.up _ _ ⟨i + d, hx, hb⟩
    have hxc : file[i + d].cycle = c := by omega
    exact le_trans (ih _ hx hxc) (step_up k file ho c (i + d) _ b hx hb hxc)

/-- the last record of a cycle -/
theorem exists_last (file : List Rec) (c : Int) (h : ∃ r ∈ file, r.cycle = c) :
    ∃ (L : Nat) (r : Rec), file[L]? = some r ∧ r.cycle = c ∧ ∀ (j : Nat) x, file[j]? = some x → x.cycle = c → j ≤ L := by
  induction file with
  | nil => obtain ⟨r, hr, _⟩ := h; cases hr
  | cons a l ih =>
    by_cases hl : ∃ r ∈ l, r.cycle = c
    · obtain ⟨L, r, h1, h2, h3⟩ := ih hl
      refine ⟨L + 1, r, h1, h2, ?_⟩
      intro j x hx hxc
      cases j with
      | zero => omega
      | succ j => have := h3 j x hx hxc; omega
    · obtain ⟨r, hr, hrc⟩ := h
      rcases List.mem_cons.mp hr with rfl | hr
      · refine ⟨0, r, rfl, hrc, ?_⟩
        intro j x hx hxc
        cases j with
        | zero => omega
        | succ j => exact absurd ⟨x, List.mem_of_getElem? hx, hxc⟩ hl
      · exact absurd ⟨r, hr, hrc⟩ hl

theorem completedBefore_rest (k : Kind) (file : List Rec) (c : Int) (L d : Nat)
    (hno : ∀ (j : Nat) x, file[j]? = some x → x.cycle = c → j ≤ L) :
    completedBefore (file.map (view k)) c (L + 1 + d) = completedBefore (file.map (view k)) c (L + 1) := by
  induction d with
  | zero => rfl
  | succ d ih =>
    show completedBefore (file.map (view k)) c (L + 1 + d) + _ = _
    rw [ih, if_neg, add_zero]
    rintro ⟨_, h⟩
    rw [rows_get] at h
    change Option.map Row.cycle (Option.map (view k) file[L + 1 + d]?) = some c at h
    cases hx : file[L + 1 + d]? with
    | none => rw [hx] at h; cases h
    | some x =>
      rw [hx] at h
      have := hno _ x hx (by simpa [view] using h)
      omega

theorem at_last (k : Kind) (file : List Rec) (ho : Ordinary file) (c : Int) (L : Nat) (r : Rec) (hL : file[L]? = some r)
    (hc : r.cycle = c) (hno : ∀ (j : Nat) x, file[j]? = some x → x.cycle = c → j ≤ L) :
    reading file k r + completedBefore (file.map (view k)) c L = total (reading file k) c file := by
  have hlt := (List.getElem?_eq_some_iff.mp hL).1
  have ht := total_drop k file ho c (file.length - 1) 0 (by omega)
  rw [List.drop_zero] at ht
  have h0 : completedBefore (file.map (view k)) c 0 = 0 := rfl
  rw [h0, zero_add] at ht
  rw [ht]
  have hn : file.length - 1 < file.length := by omega
  have hd : file.drop (file.length - 1) = [file[file.length - 1]] := by
    rw [List.drop_eq_getElem_cons hn, List.drop_of_length_le (by omega)]
  rw [hd]
  simp only [total]
  by_cases hlast : L = file.length - 1
  · have : file[file.length - 1] = r := by
      have := List.getElem?_eq_getElem hn
      rw [hlast] at hL
      rw [hL] at this
      exact (Option.some.inj this).symm
    rw [this, if_pos hc, ← hlast]
    ring
  · have h1 : L + 1 < file.length := by omega
    have hb := List.getElem?_eq_getElem h1
    have hcyc : r.cycle ≠ file[L + 1].cycle := by
      intro h
      have := hno _ _ hb (by omega)
      omega
    rw [if_neg (by intro h; have := hno _ _ (List.getElem?_eq_getElem hn) h; omega), add_zero]
    have hrest := completedBefore_rest k file c L (file.length - 1 - (L + 1)) hno
    have e : L + 1 + (file.length - 1 - (L + 1)) = file.length - 1 := by omega
    rw [e] at hrest
    rw [hrest]
    rw [cb_succ k file ho c L r _ hL hb, if_pos ⟨ho.begins _ _ ⟨L, hL, hb⟩ hcyc, hc⟩]
    ring

/-- the largest accumulated value of a cycle -/
theorem isMax_column (k : Kind) (file : List Rec) (ho : Ordinary file) (c : Int) (hu : UnderWay file c)
    (hc : ∃ r ∈ file, r.cycle = c) (f : Summary.Raw → Option Rat)
    (hf : ∀ (i : Nat) x, (rawOf file)[i]? = some x → f x = (column k file)[i]?) :
    Spec.Summary.IsMax ((Spec.Summary.rowsOf (rawOf file) c).map f) (total (reading file k) c file) := by
  obtain ⟨L, r, hL, hrc, hno⟩ := exists_last file c hc
  have hraw : ∀ (i : Nat), (rawOf file)[i]? = (file[i]?).map (fun r =>
      { cycle := r.cycle, chgCap := (column .chgCap file)[i]?, dchgCap := (column .dchgCap file)[i]?,
        chgEn := (column .chgEn file)[i]?, dchgEn := (column .dchgEn file)[i]?, stamp := r.stamp,
        voltage := r.voltage }) := by
    intro i
    unfold rawOf
    rw [List.getElem?_mapIdx]
  constructor
  · have h1 := hraw L
    rw [hL] at h1
    refine List.mem_map.mpr ⟨_, List.mem_filter.mpr ⟨List.mem_of_getElem? h1, decide_eq_true hrc⟩, ?_⟩
    rw [hf L _ h1, column_get k file ho c hu L r hL hrc, at_last k file ho c L r hL hrc hno]
  · intro v hv
    obtain ⟨x, hx, hxv⟩ := List.mem_map.mp hv
    obtain ⟨hxm, hxc⟩ := List.mem_filter.mp hx
    obtain ⟨i, hi⟩ := List.mem_iff_getElem?.mp hxm
    have h2 := hi
    rw [hraw i] at h2
    obtain ⟨q, hq, rfl⟩ := Option.map_eq_some_iff.mp h2
    have hqc : q.cycle = c := of_decide_eq_true hxc
    rw [hf i _ hi, column_get k file ho c hu i q hq hqc] at hxv
    have hle := hno i q hq hqc
    have := upTo k file ho c i q hq hqc (L - i) r (by rw [show i + (L - i) = L from by omega]; exact hL) hrc
    rw [show i + (L - i) = L from by omega, at_last k file ho c L r hL hrc hno] at this
    rw [← Option.some.inj hxv]
    exact this

theorem raw_get (file : List Rec) (i : Nat) (x : Summary.Raw) (h : (rawOf file)[i]? = some x) :
    x.chgCap = (column .chgCap file)[i]? ∧ x.dchgCap = (column .dchgCap file)[i]? ∧
    x.chgEn = (column .chgEn file)[i]? ∧ x.dchgEn = (column .dchgEn file)[i]? := by
  unfold rawOf at h
  rw [List.getElem?_mapIdx] at h
  obtain ⟨r, _, rfl⟩ := Option.map_eq_some_iff.mp h
  exact ⟨rfl, rfl, rfl, rfl⟩

theorem row_cycle (file : List Rec) (p : Summary.Params) (diag : Option (List Int)) (s : List Summary.Row)
    (h : Summary.summarize p diag (rawOf file) = .ok s) (r : Summary.Row) (hr : r ∈ s) : ∃ x ∈ file, x.cycle = r.cycle := by
  obtain ⟨k, hk⟩ := List.mem_iff_getElem?.mp hr
  obtain ⟨h1, _⟩ := Summary.summarize_get h k r hk
  obtain ⟨c, hc, _, e2, _⟩ := Summary.table_get p diag (rawOf file) k r h1
  have hm := List.mem_of_getElem? hc
  unfold Summary.kept at hm
  obtain ⟨x, hx, hxc⟩ := Summary.mem_cycles.mp (List.mem_filter.mp hm).1
  obtain ⟨i, hi⟩ := List.mem_iff_getElem?.mp hx
  unfold rawOf at hi
  rw [List.getElem?_mapIdx] at hi
  obtain ⟨q, hq, rfl⟩ := Option.map_eq_some_iff.mp hi
  exact ⟨q, List.mem_of_getElem? hq, by rw [e2]; exact hxc⟩

/-- C159.  In the summary of an ordinary Maccor file, the row of a cycle in which a step has ended reports as charged
and discharged capacity the sums of what its charging and discharging steps counted; energies likewise, unless they
exceed the error threshold.  Missing for the full claim: a cycle of which only an unfinished step is there
(`C159_started_violated`), steps that end without an ending status (`C159_status_violated`). -/
theorem C159_summary_partial (file : List Rec) (ho : Ordinary file) (p : Summary.Params) (diag : Option (List Int))
    (s : List Summary.Row) (h : Summary.summarize p diag (rawOf file) = .ok s) (r : Summary.Row) (hr : r ∈ s)
    (hu : UnderWay file r.cycle) :
    r.chgCap = some (total (reading file .chgCap) r.cycle file) ∧
    r.dchgCap = some (total (reading file .dchgCap) r.cycle file) ∧
    (∀ e, e = total (reading file .chgEn) r.cycle file → -p.errorThreshold ≤ e → e ≤ p.errorThreshold →
      r.chgEn = some e) ∧
    (∀ e, e = total (reading file .dchgEn) r.cycle file → -p.errorThreshold ≤ e → e ≤ p.errorThreshold →
      r.dchgEn = some e) := by
  have hin := row_cycle file p diag s h r hr
  obtain ⟨_, h1, h2⟩ := Props.Summary.C62_capacities p diag (rawOf file) s h r hr
  have hd := isMax_column .dchgEn file ho r.cycle hu hin Summary.Raw.dchgEn (fun i x hx => (raw_get file i x hx).2.2.2)
  have hc := isMax_column .chgEn file ho r.cycle hu hin Summary.Raw.chgEn (fun i x hx => (raw_get file i x hx).2.2.1)
  obtain ⟨h3, h4, _⟩ := Props.Summary.C62_energies p diag (rawOf file) s h r hr _ _ hd hc
  refine ⟨(h1 _).mpr (isMax_column .chgCap file ho r.cycle hu hin _ (fun i x hx => (raw_get file i x hx).1)),
    (h2 _).mpr (isMax_column .dchgCap file ho r.cycle hu hin _ (fun i x hx => (raw_get file i x hx).2.1)), ?_, ?_⟩
  · rintro e rfl a b
    rw [h4, if_pos ⟨a, b⟩]
  · rintro e rfl a b
    rw [h3, if_pos ⟨a, b⟩]

/-! ### examples -/

/-- two cycles, each with a charge in two steps and a discharge, and the beginning of a third -/
def exFile : List Rec :=
  [⟨0, 0, 'C', none, none, none, none, 1, 1, 0, 0, some 3⟩, ⟨1, 3, 'C', none, none, none, none, 131, 1, 0, 1, some 4⟩,
   ⟨1/2, 2, 'C', none, none, none, none, 132, 2, 0, 2, some 4⟩, ⟨1, 4, 'D', none, none, none, none, 1, 3, 0, 3, some 3⟩,
   ⟨7/5, 5, 'D', none, none, none, none, 133, 3, 0, 4, some 3⟩, ⟨1, 3, 'C', none, none, none, none, 131, 1, 1, 5, some 4⟩,
   ⟨1/4, 1, 'C', none, none, none, none, 132, 2, 1, 6, some 4⟩, ⟨5/4, 5, 'D', none, none, none, none, 133, 3, 1, 7, some 3⟩,
   ⟨0, 0, 'R', none, none, none, none, 1, 4, 1, 8, some 3⟩]

theorem next_of_pairs {file : List Rec} {P : Rec → Rec → Prop} (h : ∀ i < file.length, ∀ a ∈ file[i]?, ∀ b ∈ file[i + 1]?, P a b) :
    ∀ a b, Next file a b → P a b := by
  rintro a b ⟨i, ha, hb⟩
  exact h i (List.getElem?_eq_some_iff.mp ha).1 a ha b hb

theorem exFile_ordinary : Ordinary exFile where
  up := next_of_pairs (by decide +kernel)
  begins := next_of_pairs (by decide +kernel)
  status := next_of_pairs (by decide +kernel)
  positive := by intro k; cases k <;> decide +kernel
  counter := by intro k; cases k <;> exact next_of_pairs (by decide +kernel)

example : (Summary.summarize {} none (rawOf exFile)).map (·.map (fun r => (r.cycle, r.chgCap, r.dchgCap))) =
    .ok [(0, some (3 / 2), some (7 / 5)), (1, some (5 / 4), some (5 / 4))] := by
  decide +kernel

example : (Summary.summarize {} none (rawOf exFile)).map (·.map (fun r => (r.cycle, r.chgEn, r.dchgEn))) =
    .ok [(0, some 5, some 5), (1, some 4, some 5)] := by
  decide +kernel

example : UnderWay exFile 0 ∧ UnderWay exFile 1 :=
  ⟨.inl ⟨_, _, ⟨2, rfl, rfl⟩, rfl, by decide⟩, .inl ⟨_, _, ⟨5, rfl, rfl⟩, rfl, by decide⟩⟩

/-! ### violations -/

/-- C159 fails for a cycle that has just begun: in a file that ends within the first step of cycle 1, the summary
counts that cycle as complete and reports the capacity discharged in cycle 0 as discharged in it -/
theorem C159_started_violated : ∃ file : List Rec, Ordinary file ∧ total (reading file .dchgCap) 1 file = 0 ∧
    (Summary.summarize {} none (rawOf file)).map (·.map (fun r => (r.cycle, r.chgCap, r.dchgCap))) =
      .ok [(0, some 1, some 1), (1, some (101 / 100), some 1)] := by
  refine ⟨[⟨0, 0, 'C', none, none, none, none, 1, 1, 0, 0, some 3⟩, ⟨1, 4, 'C', none, none, none, none, 131, 1, 0, 1, some 4⟩,
    ⟨1, 4, 'D', none, none, none, none, 133, 2, 0, 2, some 3⟩, ⟨0, 0, 'C', none, none, none, none, 1, 3, 1, 3, some 3⟩,
    ⟨1/100, 1/25, 'C', none, none, none, none, 1, 3, 1, 4, some (7/2)⟩], ?_, ?_, ?_⟩
  · exact ⟨next_of_pairs (by decide +kernel), next_of_pairs (by decide +kernel), next_of_pairs (by decide +kernel),
      by intro k; cases k <;> decide +kernel, by intro k; cases k <;> exact next_of_pairs (by decide +kernel)⟩
  · decide +kernel
  · decide +kernel

/-- C159 fails for a step that ends without an ending status, as after an interruption: instead of the sum of two
discharges the larger one is reported -/
theorem C159_status_violated (a b : Rat) :
    let file : List Rec := [⟨a, 0, 'D', none, none, none, none, 1, 1, 0, 0, none⟩, ⟨b, 0, 'D', none, none, none, none, 133, 2, 0, 1, none⟩]
    total (reading file .dchgCap) 0 file = a + b ∧
    (Summary.summarize {} none (rawOf file)).map (·.map (fun r => (r.cycle, r.dchgCap))) = .ok [(0, some (max a b))] := by
  intro file
  constructor
  · show (if (1 : Int) ≠ 2 ∧ (0 : Int) = 0 then a else 0) + (if (0 : Int) = 0 then b else 0) = a + b
    simp
  · have h : (Summary.summarize {} none (rawOf file)).map (·.map (fun r => (r.cycle, r.dchgCap))) =
        .ok [(0, some (if a < b then b else a))] := rfl
    rw [h]
    congr 4
    split_ifs with h1
    · exact (max_eq_right h1.le).symm
    · exact (max_eq_left (not_lt.mp h1)).symm

end Beep.Props.MaccorRun
