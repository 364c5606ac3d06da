import Verif.Spec.WaveProcedure
import Verif.Spec.Accepted
import Verif.Props.Accepted
import Verif.Props.Inserted
import Verif.Proof.Batch
import Verif.Proof.Text
import Verif.Proof.Py
/-
Lemmas for C121 and C122.
-/
namespace Beep.Proof.WaveProcedure
open Beep Text MaccorProcedure WaveProcedure Spec.MaccorProcedure Spec.Inserted Spec.WaveProcedure Spec.Accepted
  Proof.MaccorProcedure Proof.Inserted Props.MaccorProcedure Props.Inserted Props.Accepted

/-! ### names -/

theorem isDir {d : Str} (h : d = [] ∨ d.getLast? = some '/') : d = [] ∨ ∃ d', d = d' ++ ['/'] := by
  rcases h with h | h
  · exact .inl h
  · exact .inr ⟨d.dropLast, (List.dropLast_append_getLast? _ h).symm⟩

theorem localName_cut {a x b : Str} (ha : a = [] ∨ a.getLast? = some '/') (hx : '/' ∉ x) (hd : '.' ∉ a ++ x) :
    localName (a ++ (x ++ '.' :: b)) = x := by
  rw [localName, ← List.append_assoc, splitC_append _ _ _ hd]
  exact Proof.Batch.basename_append a x (isDir ha) hx

theorem lastPart_ext (a e : Str) (he : '.' ∉ e) : lastPart (a ++ '.' :: e) = e := by
  have key : ∀ a : Str, (splitC '.' (a ++ '.' :: e)).getLast? = some e := by
    intro a
    induction a with
    | nil => rw [List.nil_append, splitC, if_pos rfl, splitC_none _ _ he]; rfl
    | cons x a ih =>
      rw [List.cons_append, splitC]
      split
      · rw [List.getLast?_cons_of_ne_nil (splitC_ne_nil _ _)]; exact ih
      · split
        · rename_i h; exact absurd h (splitC_ne_nil _ _)
        · rename_i f fs h
          rw [h] at ih
          cases fs with
          | nil =>
            -- impossible: the text has a dot, so there are two parts
            exfalso
            have : ∀ a : Str, 2 ≤ (splitC '.' (a ++ '.' :: e)).length := by
              intro a
              induction a with
              | nil => rw [List.nil_append, splitC, if_pos rfl, splitC_none _ _ he]; simp
              | cons y a ih2 =>
                rw [List.cons_append, splitC]
                split
                · simp only [List.length_cons]; omega
                · split
                  · rename_i h'; exact absurd h' (splitC_ne_nil _ _)
                  · rename_i f' fs' h'; rw [h'] at ih2; simpa using ih2
            have := this a
            rw [h] at this
            simp at this
          | cons g gs => simpa using ih
  rw [lastPart, List.getLastD_eq_getLast?, key]; rfl

theorem no_dot_of_mwf {e : Str} (h : e.map Char.toLower = "mwf".toList) : '.' ∉ e := by
  intro hm
  have : Char.toLower '.' ∈ e.map Char.toLower := List.mem_map_of_mem hm
  rw [h] at this
  revert this
  decide

theorem lastPart_wave {path dir name : Str} (h : WaveFile path dir name) :
    (lastPart path).map Char.toLower = "mwf".toList := by
  obtain ⟨e, rfl, -, -, he⟩ := h
  rw [← List.append_assoc, lastPart_ext _ _ (no_dot_of_mwf he), he]

theorem localName_wave {path dir name : Str} (h : WaveFile path dir name) (hd : '.' ∉ dir ++ name) :
    localName path = name := by
  obtain ⟨e, rfl, h1, h2, -⟩ := h
  exact localName_cut h1 h2 hd

/-! ### the waveform step -/

theorem wave_iff (i : Nat) (path : Str) (p p' : List Step) :
    insertWaveform i path p = .ok p' ↔ ∃ s, p[i]? = some s ∧ p' = p.set i (waveStep path s) ∧
      (lastPart path).map Char.toLower = "mwf".toList ∧ (localName path).length < 25 := by
  rw [insertWaveform]
  cases hs : p[i]? with
  | none => simp
  | some s =>
    dsimp only
    split
    · rename_i h1
      split
      · rename_i h2
        constructor
        · intro h; cases h; exact ⟨s, rfl, rfl, h1, h2⟩
        · rintro ⟨s', hs', rfl, -, -⟩; cases hs'; rfl
      · rename_i h2
        exact ⟨fun h => (nomatch h), fun ⟨_, _, _, _, h⟩ => absurd h h2⟩
    · rename_i h1
      exact ⟨fun h => (nomatch h), fun ⟨_, _, _, h, _⟩ => absurd h h1⟩

theorem wave_other {i : Nat} {path : Str} {p p' : List Step} (h : insertWaveform i path p = .ok p') (j : Nat)
    (hj : j ≠ i) : p'[j]? = p[j]? := by
  obtain ⟨s, -, rfl, -, -⟩ := (wave_iff i path p p').mp h
  rw [List.getElem?_set_ne (Ne.symm hj)]

theorem blank_set (d : Dict Str Val) (a b c e : Str) (v : Val) :
    (∀ k ∈ [a, b, c, e], Dict.get? ((((d.set a v).set b v).set c v).set e v) k = some v) ∧
    ∀ k, k ∉ [a, b, c, e] → Dict.get? ((((d.set a v).set b v).set c v).set e v) k = Dict.get? d k := by
  constructor
  · intro k hk
    by_cases h4 : k = e
    · rw [h4, Dict.get?_set_self]
    rw [Dict.get?_set_ne _ _ h4]
    by_cases h3 : k = c
    · rw [h3, Dict.get?_set_self]
    rw [Dict.get?_set_ne _ _ h3]
    by_cases h2 : k = b
    · rw [h2, Dict.get?_set_self]
    rw [Dict.get?_set_ne _ _ h2]
    by_cases h1 : k = a
    · rw [h1, Dict.get?_set_self]
    simp_all
  · intro k hk
    simp only [List.mem_cons, List.not_mem_nil, or_false, not_or] at hk
    obtain ⟨h1, h2, h3, h4⟩ := hk
    rw [Dict.get?_set_ne _ _ h4, Dict.get?_set_ne _ _ h3, Dict.get?_set_ne _ _ h2, Dict.get?_set_ne _ _ h1]

theorem waveStep_fields (path : Str) (s : Step) :
    (waveStep path s).stepType = "FastWave".toList ∧ (waveStep path s).stepMode = some [] ∧
    (waveStep path s).stepValue = .text (localName path) ∧ (waveStep path s).ends = none ∧ (waveStep path s).reports = none ∧
    (waveStep path s).other = ((((s.other.set "Range".toList (.text [])).set "Option1".toList (.text [])).set
      "Option2".toList (.text [])).set "Option3".toList (.text [])) ∧ (waveStep path s).limits = s.limits := by
  unfold waveStep
  exact ⟨rfl, rfl, rfl, rfl, rfl, rfl, rfl⟩

/-- the waveform replaces what step `i` was; `q` is the procedure it is inserted in, `p` the template -/
theorem plays_of {i : Nat} {path : Str} {p q q' p' : List Step} {t u : Step} (h : insertWaveform i path q = .ok q')
    (ht : p[i]? = some t) (hu : q[i]? = some u) (ho : u.other = t.other)
    (hl : ∀ key, limitOf u key = limitOf t key) (hp : p'[i]? = q'[i]?) : Plays p p' i (localName path) := by
  obtain ⟨s, hs, rfl, -, -⟩ := (wave_iff i path q q').mp h
  rw [hu] at hs; cases hs
  have hi : i < q.length := by
    by_contra hn
    rw [List.getElem?_eq_none (Nat.le_of_not_lt hn)] at hu; cases hu
  obtain ⟨b1, b2⟩ := blank_set u.other "Range".toList "Option1".toList "Option2".toList "Option3".toList (.text [])
  have hg : p'[i]? = some (waveStep path u) := by rw [hp, List.getElem?_set_self hi]
  obtain ⟨w1, w2, w3, w4, w5, w6, w7⟩ := waveStep_fields path u
  refine ⟨t, waveStep path u, ht, hg, w1, w2, w3, w4, w5, ?_, ?_, ?_⟩
  · rw [w6]; exact b1
  · rw [w6, ← ho]; exact b2
  · intro key; rw [← hl key, limitOf, limitOf, w7]

/-- a step that plays one waveform plays no other -/
theorem plays_unique {p p' : List Step} {i : Nat} {n m : Str} (h : Plays p p' i n) (h' : Plays p p' i m) : n = m := by
  obtain ⟨t, s, -, hs, -, -, hv, -⟩ := h
  obtain ⟨t', s', -, hs', -, -, hv', -⟩ := h'
  rw [hs] at hs'; cases hs'
  rw [hv] at hv'
  exact Val.text.inj hv'

/-! ### what steps a part leaves alone -/

theorem V3_frame {i : Nat} {r : RegParam} {c : List Instr} {p p' : List Step} (hc : insertChargeV3 i r = .ok c)
    (h : run c p = .ok p') (j : Nat) (hj : j < i ∨ i + 3 < j) : p'[j]? = p[j]? :=
  ((C66_regular_cycle i r p p').2.1 _ hc h).2 j (by omega)

theorem V3_upper {i : Nat} {r : RegParam} {c : List Instr} {p p' : List Step} (hc : insertChargeV3 i r = .ok c)
    (h : run c p = .ok p') :
    read p' (.ending i (.nth 1)) = some (n3 r.chargeCutoffVoltage) ∧
    read p' (.ending (i + 1) (.nth 0)) = some (n3 r.chargeCutoffVoltage) := by
  simp only [insertChargeV3, bind, Except.bind] at hc
  split at hc
  · cases hc
  cases hc
  exact ⟨run_written (c := .setEnd i (.nth 1) (n3 r.chargeCutoffVoltage)) h
      (by simp [expect, chargeTail, lastWrite, writes]) rfl,
    run_written (c := .setEnd (i + 1) (.nth 0) (n3 r.chargeCutoffVoltage)) h
      (by simp [expect, chargeTail, lastWrite, writes]) rfl⟩

theorem V3_limits {i : Nat} {r : RegParam} {c : List Instr} {p p' : List Step} (hc : insertChargeV3 i r = .ok c)
    (h : run c p = .ok p') (key : Str) : read p' (.limit i key) = read p (.limit i key) := by
  simp only [insertChargeV3, bind, Except.bind] at hc
  split at hc
  · cases hc
  cases hc
  exact run_other h (by simp [expect, chargeTail, lastWrite, writes])

theorem endAt_endOf {s : Step} {k : Sel} {e : EndE} (h : endOf s k = some e) : endAt s k = .ok e := by
  cases k with
  | one =>
    simp only [endOf] at h
    simp only [endAt]
    split at h
    · rename_i h'; cases h; rw [h']
    · cases h
  | nth k =>
    simp only [endOf] at h
    simp only [endAt]
    split at h
    · rename_i h'; rw [h']; simp only [h]
    · cases h

theorem read_ending {p : List Step} {i : Nat} {k : Sel} {v : Val} (h : read p (.ending i k) = some v) :
    ∃ s e, stepAt p i = .ok s ∧ endAt s k = .ok e ∧ e.value = v := by
  simp only [Proof.Inserted.read] at h
  obtain ⟨s, hs, h⟩ := Option.bind_eq_some_iff.mp h
  obtain ⟨e, he, rfl⟩ := Option.map_eq_some_iff.mp h
  exact ⟨s, e, by rw [stepAt, hs], endAt_endOf he, rfl⟩

theorem read_congr {p p' : List Step} {i : Nat} {k : Sel} (h : p'[i]? = p[i]?) :
    read p' (.ending i k) = read p (.ending i k) := by
  simp only [Proof.Inserted.read, h]

theorem sameUpper_ok {p : List Step} {i : Nat} {v : Val} (h : read p (.ending i (.nth 1)) = some v)
    (h' : read p (.ending (i + 1) (.nth 0)) = some v) : sameUpper i p = .ok () := by
  obtain ⟨s, e, a, b, c⟩ := read_ending h
  obtain ⟨s', e', a', b', c'⟩ := read_ending h'
  simp only [sameUpper, bind, Except.bind, a, b, a', b', c, c', if_true]

theorem belowUpper_iff {p : List Step} {i : Nat} {v limit : Rat}
    (h' : read p (.ending (i + 1) (.nth 0)) = some (.num v)) : belowUpper limit i p = .ok () ↔ limit < v := by
  obtain ⟨s', e', a', b', c'⟩ := read_ending h'
  simp only [belowUpper, bind, Except.bind, a', b', c']
  by_cases h : limit < v <;> simp [h]

/-! ### the conditions on the template only look at the steps they name -/

theorem fitsCharge_congr {p p' : List Step} {i : Nat} (h : ∀ j, i ≤ j → j ≤ i + 3 → p'[j]? = p[j]?) :
    FitsChargeV3 p' i ↔ FitsChargeV3 p i := by
  simp only [FitsChargeV3, FitsCharge, IsStep, EndOn, Resting, IsKind, Differs]
  rw [h i (by omega) (by omega), h (i + 1) (by omega) (by omega), h (i + 2) (by omega) (by omega), h (i + 3) (by omega) (by omega)]

theorem fitsDischarge_congr {p p' : List Step} {i : Nat} (h : ∀ j, i ≤ j → j ≤ i + 3 → p'[j]? = p[j]?) :
    FitsDischarge p' i ↔ FitsDischarge p i := by
  simp only [FitsDischarge, IsStep, EndOn, Resting, IsKind, Looping]
  rw [h i (by omega) (by omega), h (i + 1) (by omega) (by omega), h (i + 3) (by omega) (by omega)]

theorem fitsStorage_congr {p p' : List Step} {k : Sel} {i : Nat} (h : ∀ j, i ≤ j → j ≤ i + 1 → p'[j]? = p[j]?) :
    FitsStorage k p' i ↔ FitsStorage k p i := by
  simp only [FitsStorage, IsStep, EndOn, HasLimits]
  rw [h i (by omega) (by omega), h (i + 1) (by omega) (by omega)]

/-! ### the parts -/

theorem noTest_start (index : Int) (r : RegParam) (j : Nat) (k : Sel) (v : Val) :
    Instr.endNe j k v ∉ insertInitialRest 0 index ++ insertResistance 1 r := by
  simp [insertInitialRest, insertResistance, expect]

theorem start_iff (index : Int) (r : RegParam) (p : List Step) :
    (∃ p', run (insertInitialRest 0 index ++ insertResistance 1 r) p = .ok p') ↔
      Resting p 0 ∧ IsStep p 1 "Charge" "Current" := by
  rw [run_iff _ (fresh_of_none (noTest_start index r)), meets_append, meets_initial, meets_resistance]

theorem start_frame {index : Int} {r : RegParam} {p p' : List Step}
    (h : run (insertInitialRest 0 index ++ insertResistance 1 r) p = .ok p') (j : Nat) (hj : 1 < j) : p'[j]? = p[j]? := by
  obtain ⟨q, h1, h2⟩ := Proof.Inserted.run_append h
  rw [((C66_regular_cycle 1 r q p').2.2.2.2.1 h2).2 j (by omega), ((C66_regular_cycle 0 r p q).2.2.2.2.2 _ h1).2 j (by omega)]

theorem start_spec {index : Int} {r : RegParam} {p p' : List Step}
    (h : run (insertInitialRest 0 index ++ insertResistance 1 r) p = .ok p') :
    StartsAfter p' index ∧ Resistance r p' 1 := by
  obtain ⟨q, h1, h2⟩ := Proof.Inserted.run_append h
  have h0 : 0 ≤ index % 96 := Int.emod_nonneg _ (by decide)
  refine ⟨?_, (C69_regular 1 r q p').1 h2⟩
  obtain ⟨n, hn, -, -, he⟩ := C37_rest_written 0 index p q h1
  have : n = 10800 + 720 * (index % 96).toNat := by omega
  rw [this] at hn
  have hq := ((C66_regular_cycle 1 r q p').2.2.2.2.1 h2).2 0 (by omega)
  simp only [StartsAfter, EndTime] at hn ⊢
  rw [hq]
  exact hn

theorem V3_iff {i : Nat} {r : RegParam} {c : List Instr} (hc : insertChargeV3 i r = .ok c) (p : List Step) :
    (∃ p', run c p = .ok p') ↔ FitsChargeV3 p i := by
  rw [run_iff _ (fresh_V3 hc).1, meets_chargeV3 p i r c hc]

theorem noTest_storage (r : RegParam) (j : Nat) (k : Sel) (v : Val) :
    Instr.endNe j k v ∉ insertStorage (.nth 0) 93 r := by
  simp [insertStorage, expect]

theorem noTest_discharge (i : Nat) (r : RegParam) (j : Nat) (k : Sel) (v : Val) :
    Instr.endNe j k v ∉ insertDischarge i r := by
  simp [insertDischarge, expect]

theorem storage_iff (r : RegParam) (p : List Step) :
    (∃ p', run (insertStorage (.nth 0) 93 r) p = .ok p') ↔ FitsStorage (.nth 0) p 93 := by
  rw [run_iff _ (fresh_of_none (noTest_storage r)), meets_storage]

theorem discharge_iff (i : Nat) (r : RegParam) (p : List Step) :
    (∃ p', run (insertDischarge i r) p = .ok p') ↔ FitsDischarge p i := by
  rw [run_iff _ (fresh_of_none (noTest_discharge i r)), meets_discharge]

theorem storage_frame {r : RegParam} {p p' : List Step} (h : run (insertStorage (.nth 0) 93 r) p = .ok p') (j : Nat)
    (hj : j < 93 ∨ 94 < j) : p'[j]? = p[j]? :=
  ((C66_regular_cycle 93 r p p').2.2.2.1 _ h).2 j (by omega)

theorem discharge_frame {i : Nat} {r : RegParam} {p p' : List Step} (h : run (insertDischarge i r) p = .ok p') (j : Nat)
    (hj : j < i ∨ i + 3 < j) : p'[j]? = p[j]? :=
  ((C66_regular_cycle i r p p').2.2.1 h).2 j (by omega)

theorem run_append_iff (a b : List Instr) (p p' : List Step) :
    run (a ++ b) p = .ok p' ↔ ∃ q, run a p = .ok q ∧ run b q = .ok p' := by
  constructor
  · exact Proof.Inserted.run_append
  · rintro ⟨q, h1, h2⟩
    induction a generalizing p with
    | nil => cases h1; exact h2
    | cons c a ih =>
      obtain ⟨q', hq, hr⟩ := Proof.MaccorProcedure.run_cons h1
      have := ih q' hr
      simp only [List.cons_append, run, bind, Except.bind, hq, this]

end Beep.Proof.WaveProcedure
