import Verif.Proof.Rounding
import Verif.Proof.ChargeWave
import Verif.Proof.Features
import Verif.Props.Waveform
/-
Theorems about driving and charging waveforms: C73 - C77.
-/
namespace Beep.Props.ChargeWave
open Beep Pandas ChargeWave Spec.ChargeWave Proof.ChargeWave
open Beep.Spec.Waveform (Peak Prescribes expand)

/-! ### Driving waveforms (C73) -/

/-- C73: whatever was generated before, the file repeats the profile, its peak at the requested power,
and charge lines are limited at the requested voltage and end 50 mV above.  Missing: the limit of the
discharge lines, see `C73_limit_violated`. -/
theorem C73_driving_partial (history : List Waveform.Call) (d : Waveform.Driving) (m : Rat)
    (hm : Peak d.profile m) (h0 : m ≠ 0) (hn : 1 ≤ d.repeats) :
    ∃ ls, (Waveform.step (Waveform.after Waveform.defaultConfig history) (.driving d)).2 = .ok ls ∧
      List.Forall₂ (fun x o => Prescribes (x / m * (d.maxProfilePower * d.powerScaling)) o)
        (List.replicate d.repeats d.profile).flatten (expand ls) ∧
      ∀ l ∈ ls, (l.state = "C".toList ∧ l.limitMode = "V".toList ∧ l.limitValue = d.profileChargeLimit ∧
            l.endMode = "V".toList ∧ l.operation = ">=".toList ∧
            l.endModeValue = d.profileChargeLimit + 1 / 20 ∨
          l.state = "D".toList ∧ l.endMode = "V".toList ∧ l.operation = "<=".toList ∧
            l.endModeValue = d.dischargeCutoffVoltage - 1 / 10) ∧
        l.reportMode = "T".toList ∧ l.reportValue = 3 ∧ l.range = "A".toList ∧
        (l.controlMode = "P".toList ∨
          l.controlMode = "I".toList ∧ l.value = some 0 ∧ l.state = "D".toList) := by
  have hpk : Peak (Waveform.repeatList d.repeats d.profile) m := by
    unfold Waveform.repeatList
    obtain ⟨⟨x, hx, he⟩, hall⟩ := hm
    constructor
    · refine ⟨x, ?_, he⟩
      rw [List.mem_flatten]
      exact ⟨d.profile, by rw [List.mem_replicate]; exact ⟨by omega, rfl⟩, hx⟩
    · intro y hy
      rw [List.mem_flatten] at hy
      obtain ⟨l, hl, hyl⟩ := hy
      rw [(List.mem_replicate.mp hl).2] at hyl
      exact hall y hyl
  obtain ⟨ls, hls, hf⟩ := Props.Waveform.C38_reproduces
    (Waveform.drivingConfig (Waveform.after Waveform.defaultConfig history) d) .power _ m hpk h0
  refine ⟨ls, ?_, hf, ?_⟩
  · simp only [Waveform.step]
    rw [if_neg (by omega), hls]
  · rw [Props.Waveform.after_fixed] at hls
    intro l hl
    obtain ⟨h1, h2, h3, h4, h5⟩ := Props.Waveform.C38_columns _ _ _ ls hls l hl
    refine ⟨?_, h2, h3, h4, ?_⟩
    · rcases h1 with ⟨a, b, c, e, f, g⟩ | ⟨a, b, c, e, f, g⟩
      · refine Or.inl ⟨a, b, c, e, f, g.trans ?_⟩
        simp only [Waveform.drivingConfig]; norm_num
      · exact Or.inr ⟨a, e, f, g⟩
    · rcases h5 with h | ⟨a, b, c, e⟩
      · exact Or.inl h
      · exact Or.inr ⟨a, c, e⟩

/-- C73: without repetition the request is refused -/
theorem C73_none (shared : Waveform.Config) (d : Waveform.Driving) (h : d.repeats = 0)
    (hp : d.profile ≠ []) : ∃ e, (Waveform.step shared (.driving d)).2 = .error e := by
  refine ⟨.valueError, ?_⟩
  simp only [Waveform.step]
  rw [if_pos ⟨h, hp⟩]

/-- C73 fails for discharge lines: whatever cutoff was requested they are limited at 2.7 V, so with a
cutoff below 2.8 V their end condition lies at or below the limit -/
theorem C73_limit_violated (history : List Waveform.Call) (d : Waveform.Driving) (ls : List Waveform.Line)
    (h : (Waveform.step (Waveform.after Waveform.defaultConfig history) (.driving d)).2 = .ok ls) :
    ∀ l ∈ ls, l.state = "D".toList → l.limitMode = "V".toList ∧ l.limitValue = 27 / 10 := by
  intro l hl hs
  simp only [Waveform.step, Props.Waveform.after_fixed] at h
  split at h
  · cases h
  · obtain ⟨h1, -⟩ := Props.Waveform.C38_columns _ _ _ ls h l hl
    rcases h1 with ⟨a, -⟩ | ⟨-, b, c, -⟩
    · rw [hs] at a
      exact absurd a (by decide)
    · exact ⟨b, c⟩

-- a request for two repetitions with a cutoff of 3 V: the discharge lines are limited at 2.7 V
example : (((Waveform.step Waveform.defaultConfig
    (.driving ⟨[-1, 0, 2], 4, 40, 1 / 2, 3, 2⟩)).2.toOption.map
      (List.map (fun l => [l.value.getD 0, l.limitValue, l.endModeValue, (l.duration : Rat)])))) =
    some [[10, 27 / 10, 29 / 10, 1], [0, 27 / 10, 29 / 10, 1], [20, 4, 405 / 100, 1],
      [10, 27 / 10, 29 / 10, 1], [0, 27 / 10, 29 / 10, 1], [20, 4, 405 / 100, 1]] := by
  decide +kernel

example : Peak [-1, 0, 2] 2 := ⟨⟨2, by simp, by decide +kernel⟩, by decide +kernel⟩

/-! ### Step charging (C75) -/

/-- C75: the rate of the step waveform at each of the thousand states of charge.  Strictly inside a
window it is the rate of the window.  Missing: at the first state of charge it is half the rate, at the
border of two windows the mean of theirs, see `C75_start_violated`; windows out of order, see
`C75_overlap_violated`. -/
theorem C75_windows_partial (w : Wave) (rates mesh out : List Rat)
    (h : multistep w rates mesh = .ok out) (hd : Divides w mesh) :
    out.length = 1000 ∧ ∀ k : Nat, k < 1000 →
      (∀ (i : Nat), Inside mesh i (socAt w k) → out[k]? = rates[i]?) ∧
      (∀ (i : Nat) (r r' : Rat), mesh[i + 1]? = some (socAt w k) → i + 2 < mesh.length →
        rates[i]? = some r → rates[i + 1]? = some r' → out[k]? = some ((r + r') / 2)) ∧
      (∀ r : Rat, k = 0 → w.socI < w.socF → rates[0]? = some r → out[k]? = some (r / 2)) ∧
      (∀ r : Rat, k = 999 → rates[mesh.length - 2]? = some r →
        out[k]? = some (r / 2 + w.finalRate / 4)) := by
  obtain ⟨h2, hn, ho⟩ := multistep_ok h
  refine ⟨by rw [ho, List.length_map, length_socVector], ?_⟩
  intro k hk
  rw [multistep_get h hk]
  obtain ⟨hp, hh, hl, hlen⟩ := hd
  refine ⟨?_, ?_, ?_, ?_⟩
  · rintro i ⟨a, b, ha, hb, h3, h4⟩
    have hi : i < rates.length := by
      have := (List.getElem?_eq_some_iff.mp hb).1
      omega
    have hlt : socAt w k < w.socF := lt_of_lt_of_le h4 (le_last hp (List.mem_of_getElem? hb) hl)
    rw [rateAt_before ⟨hp, hh, hl, hlen⟩ hlt,
      windows_inside mesh rates i _ a b _ hp ha hb (List.getElem?_eq_getElem hi) h3 h4,
      List.getElem?_eq_getElem hi]
  · intro i r r' ha hi hr hr'
    have hlt : socAt w k < w.socF := by
      have hb := List.getElem?_eq_getElem (l := mesh) (i := i + 2) (by omega)
      have h4 : socAt w k < mesh[i + 2] := by
        rw [List.pairwise_iff_getElem] at hp
        have := hp (i + 1) (i + 2) (by omega) (by omega) (by omega)
        rwa [(List.getElem?_eq_some_iff.mp ha).2] at this
      exact lt_of_lt_of_le h4 (le_last hp (List.mem_of_getElem? hb) hl)
    rw [rateAt_before ⟨hp, hh, hl, hlen⟩ hlt, windows_at mesh rates i _ r r' hp ha hi hr hr']
  · intro r hk0 hlt hr
    subst hk0
    have e : socAt w 0 = w.socI := by unfold socAt; simp
    rw [e, rateAt_before ⟨hp, hh, hl, hlen⟩ hlt]
    clear ho h hn hl hlen
    match mesh, rates, hh, h2, hr, hp with
    | m₁ :: m₂ :: ms, q :: rs, hh, _, hr, hp =>
      simp only [List.head?_cons, Option.some.injEq, List.getElem?_cons_zero] at hh hr
      rw [← hh, windows_start _ _ _ _ _ hp, hr]
  · intro r hk9 hr
    subst hk9
    rw [socAt_last, rateAt_end ⟨hp, hh, hl, hlen⟩, windows_end mesh rates _ r hp h2 hl hr]

theorem share_pos {w : Wave} (h : w.socI < w.socF) : 0 < share w := by
  unfold share
  exact div_pos (sub_pos.mpr h) (by norm_num)

theorem divides_lt {w : Wave} {mesh : List Rat} (hd : Divides w mesh) : w.socI < w.socF := by
  obtain ⟨hp, hh, hl, hlen⟩ := hd
  match mesh, hh, hl, hlen, hp with
  | m₁ :: m₂ :: ms, hh, hl, _, hp =>
    simp only [List.head?_cons, Option.some.injEq] at hh
    rw [List.getLast?_cons_cons] at hl
    rw [← hh]
    exact (List.pairwise_cons.mp hp).1 _ (List.mem_of_getLast? hl)

/-- C75: all rates of the waveform lie between half the smallest and the largest requested one -/
theorem C75_bounds (w : Wave) (rates mesh out : List Rat) (h : multistep w rates mesh = .ok out)
    (hd : Divides w mesh) (lo hi : Rat) (hlo : 0 ≤ lo) (hr : ∀ r ∈ rates, lo ≤ r ∧ r ≤ hi)
    (hf : lo ≤ w.finalRate ∧ w.finalRate ≤ hi) : ∀ c ∈ out, lo / 2 ≤ c ∧ c ≤ hi := by
  obtain ⟨h2, hn, ho⟩ := multistep_ok h
  have hs := (share_pos (divides_lt hd)).le
  intro c hc
  obtain ⟨k, hk⟩ := List.mem_iff_getElem?.mp hc
  have hk' : k < 1000 := by
    have := (List.getElem?_eq_some_iff.mp hk).1
    rw [ho, List.length_map, length_socVector] at this
    exact this
  rw [multistep_get h hk'] at hk
  cases hk
  have h0 : (0 : Rat) ≤ (k : Rat) := Nat.cast_nonneg k
  have h9 : (k : Rat) ≤ 999 := by exact_mod_cast (by omega : k ≤ 999)
  apply rateAt_bounds hd hlo hn hr hf
  · unfold socAt; nlinarith
  · rw [← socAt_last]
    unfold socAt
    push_cast
    nlinarith

/-- what a successful call computes -/
theorem uniform_ok {w : Wave} {rates mesh : List Rat} {smooth : List Rat × List Rat}
    {cs cm : List Rat} (h : uniform w rates mesh smooth = .ok (cs, cm)) :
    ∃ out n, multistep w rates mesh = .ok out ∧ endTime (timeVector (socVector w) out) = .ok n ∧
      endTime smooth.1 = .ok n ∧
      cm = (List.range n.toNat).map (fun t : Nat => interp1d (timeVector (socVector w) out) out (t : Rat)) ∧
      cs = (List.range n.toNat).map (fun t : Nat => interp1d smooth.1 smooth.2 (t : Rat)) := by
  unfold uniform at h
  split at h
  · cases h
  · split at h
    · cases h
    · rename_i out hout
      split at h
      · cases h
      · split at h
        · cases h
        · simp only at h
          split at h
          · cases h
          · cases h
          · rename_i a b ha hb
            split at h
            · cases h
            · rename_i hab
              have hab : a = b := not_not.mp hab
              subst hab
              cases h
              exact ⟨out, a, hout, hb, ha, rfl, rfl⟩

theorem endTime_elapsed {w : Wave} {I : List Rat} (hI : I.length = 1000) (hs : 0 < share w)
    (hp : ∀ c ∈ I, 0 < c) : endTime (timeVector (socVector w) I) = .ok (roundEven (elapsed w I 999)) := by
  have hlast := timeVector_get w I hI 999 (by decide)
  have hmem := List.mem_of_getElem? hlast
  unfold endTime
  split
  · rename_i h
    rw [maxN_none] at h
    exact absurd ⟨_, List.mem_map.mpr ⟨_, hmem, rfl⟩⟩ h
  · rename_i m h
    obtain ⟨h1, h2⟩ := maxN_some _ _ h
    have hge := h2 _ (List.mem_map.mpr ⟨_, hmem, rfl⟩)
    obtain ⟨x, hx, he⟩ := List.mem_map.mp h1
    cases he
    obtain ⟨k, hk⟩ := List.mem_iff_getElem?.mp hx
    have hk' : k < 1000 := by
      have := (List.getElem?_eq_some_iff.mp hk).1
      rw [length_timeVector w I hI] at this; exact this
    rw [timeVector_get w I hI k hk'] at hk
    cases hk
    rcases Nat.lt_or_ge k 999 with h3 | h3
    · exact absurd (elapsed_lt w I hs hp h3 (by omega)) (not_lt.mpr hge)
    · have : k = 999 := by omega
      rw [this]

/-- C75: the current over state of charge exists exactly when there is at least one window and a rate
for each window -/
theorem C75_defined (w : Wave) (rates mesh : List Rat) :
    (∃ out, multistep w rates mesh = .ok out) ↔ 2 ≤ mesh.length ∧ mesh.length ≤ rates.length + 1 := by
  unfold multistep
  by_cases h1 : mesh.length < 2
  · rw [if_pos h1]
    constructor
    · rintro ⟨_, h⟩; cases h
    · omega
  rw [if_neg h1]
  by_cases h2 : rates.length < mesh.length - 1
  · rw [if_pos h2]
    constructor
    · rintro ⟨_, h⟩; cases h
    · omega
  rw [if_neg h2]
  exact ⟨fun _ => by omega, fun _ => ⟨_, rfl⟩⟩

/-- C75: the step waveform has one value per second of the time the charge takes, and each is read
from the rates over state of charge at that time -/
theorem C75_seconds (w : Wave) (rates mesh : List Rat) (smooth : List Rat × List Rat)
    (cs cm out : List Rat) (h : uniform w rates mesh smooth = .ok (cs, cm))
    (ho : multistep w rates mesh = .ok out) (hlt : w.socI < w.socF) (hp : ∀ c ∈ out, 0 < c) :
    Spec.Rounds (elapsed w out 999) cm.length ∧ cs.length = cm.length ∧
    ∀ (t : Nat) (v : Rat), cm[t]? = some v → Follows w out t v := by
  obtain ⟨out', n, ho', hn, -, hm, hs⟩ := uniform_ok h
  rw [ho] at ho'
  cases ho'
  have hI : out.length = 1000 := by rw [(multistep_ok ho).2.2, List.length_map, length_socVector]
  rw [endTime_elapsed hI (share_pos hlt) hp] at hn
  cases hn
  have hnn : 0 ≤ roundEven (elapsed w out 999) := by
    have h0 : (0 : Rat) ≤ elapsed w out 999 := by
      have hc := List.getElem?_eq_getElem (l := out) (i := 0) (by omega)
      have hpos := hp _ (List.mem_of_getElem? hc)
      have hs := share_pos hlt
      have h1 := elapsed_lt w out hs hp (i := 0) (j := 999) (by decide) (by omega)
      have h2 : 0 < elapsed w out 0 := by
        rw [elapsed_zero w out _ hc]; positivity
      linarith
    have := Proof.Waveform.roundEven_mono h0
    have e : roundEven 0 = 0 := by decide +kernel
    rw [e] at this
    exact this
  refine ⟨?_, ?_, ?_⟩
  · rw [Proof.rounds_iff, hm, List.length_map, List.length_range]; omega
  · rw [hm, hs]; simp
  · intro t v hv
    rw [hm, List.getElem?_map, Option.map_eq_some_iff] at hv
    obtain ⟨t', ht', rfl⟩ := hv
    have : t' = t := by
      have := (List.getElem?_eq_some_iff.mp ht').2
      rw [List.getElem_range] at this
      exact this.symm
    subst this
    exact interp1d_follows w out hI (share_pos hlt) hp t'

/-- C75: while the state of charge is strictly inside a window, the waveform prescribes the rate of
that window second by second -/
theorem C75_rate_partial (w : Wave) (rates mesh : List Rat) (smooth : List Rat × List Rat)
    (cs cm out : List Rat) (h : uniform w rates mesh smooth = .ok (cs, cm))
    (ho : multistep w rates mesh = .ok out) (hd : Divides w mesh) (hr : ∀ r ∈ rates, 0 < r)
    (hf : 0 < w.finalRate) (t k i : Nat) (v : Rat) (hv : cm[t]? = some v) (hk : k + 1 < 1000)
    (h1 : elapsed w out k ≤ t) (h2 : (t : Rat) ≤ elapsed w out (k + 1))
    (hi1 : Inside mesh i (socAt w k)) (hi2 : Inside mesh i (socAt w (k + 1))) :
    rates[i]? = some v := by
  have hlt := divides_lt hd
  have hI : out.length = 1000 := by rw [(multistep_ok ho).2.2, List.length_map, length_socVector]
  have hpos : ∀ c ∈ out, 0 < c := by
    obtain ⟨r0, hr0, hle⟩ : ∃ lo : Rat, 0 < lo ∧ ∀ r ∈ w.finalRate :: rates, lo ≤ r := by
      have : ∀ l : List Rat, (∀ r ∈ l, 0 < r) → ∃ lo : Rat, 0 < lo ∧ ∀ r ∈ l, lo ≤ r := by
        intro l
        induction l with
        | nil => intro _; exact ⟨1, by norm_num, by simp⟩
        | cons a l ih =>
          intro hl
          obtain ⟨lo, hlo, hall⟩ := ih (fun r hr => hl r (List.mem_cons_of_mem _ hr))
          refine ⟨min a lo, lt_min (hl a List.mem_cons_self) hlo, ?_⟩
          intro r hr'
          rcases List.mem_cons.mp hr' with e | e
          · rw [e]; exact min_le_left _ _
          · exact le_trans (min_le_right _ _) (hall r e)
      apply this
      intro r hr'
      rcases List.mem_cons.mp hr' with e | e
      · rw [e]; exact hf
      · exact hr r e
    obtain ⟨hi, hhi⟩ : ∃ hi : Rat, ∀ r ∈ w.finalRate :: rates, r ≤ hi := by
      have : ∀ l : List Rat, ∃ hi : Rat, ∀ r ∈ l, r ≤ hi := by
        intro l
        induction l with
        | nil => exact ⟨0, by simp⟩
        | cons a l ih =>
          obtain ⟨hi, hall⟩ := ih
          refine ⟨max a hi, ?_⟩
          intro r hr'
          rcases List.mem_cons.mp hr' with e | e
          · rw [e]; exact le_max_left _ _
          · exact le_trans (hall r e) (le_max_right _ _)
      exact this _
    intro c hc
    have := (C75_bounds w rates mesh out ho hd r0 hi hr0.le
      (fun r hr' => ⟨hle r (List.mem_cons_of_mem _ hr'), hhi r (List.mem_cons_of_mem _ hr')⟩)
      ⟨hle _ List.mem_cons_self, hhi _ List.mem_cons_self⟩ c hc).1
    linarith
  have hs := share_pos hlt
  obtain ⟨-, hwin⟩ := C75_windows_partial w rates mesh out ho hd
  have ha := (hwin k (by omega)).1 i hi1
  have hb := (hwin (k + 1) hk).1 i hi2
  have ga := List.getElem?_eq_getElem (l := out) (i := k) (by omega)
  have gb := List.getElem?_eq_getElem (l := out) (i := k + 1) (by omega)
  have heq : out[k + 1]? = out[k]? := hb.trans ha.symm
  have hmono := fun (a b : Nat) (hab : a < b) (hb : b < 1000) =>
    elapsed_lt w out hs hpos hab (by omega : b < out.length)
  rw [← ha]
  rcases (C75_seconds w rates mesh smooth cs cm out h ho hlt hpos).2.2 t v hv with ⟨h3, h4⟩ | ⟨j, a, b, hja, hjb, h3, h4, h5⟩ | ⟨h3, h4⟩
  · exfalso
    rcases Nat.eq_zero_or_pos k with e | e
    · rw [e] at h1; linarith
    · have := hmono 0 k e (by omega); linarith
  · have hj : j + 1 < 1000 := by
      have := (List.getElem?_eq_some_iff.mp hjb).1; omega
    have hd' : elapsed w out (j + 1) - elapsed w out j ≠ 0 :=
      (sub_pos.mpr (hmono j (j + 1) (by omega) hj)).ne'
    -- the interval of `t` is the given one, or touches it at `t`
    rcases lt_trichotomy j k with hjk | hjk | hjk
    · -- t is the end of interval j, and the start of interval k
      have hle : elapsed w out (j + 1) ≤ elapsed w out k := by
        rcases Nat.eq_or_lt_of_le (Nat.succ_le_of_lt hjk) with e | e
        · exact le_of_eq (by rw [← e])
        · exact (hmono _ _ e (by omega)).le
      have ht : (t : Rat) = elapsed w out (j + 1) := le_antisymm h4 (le_trans hle h1)
      have hk2 : elapsed w out k = elapsed w out (j + 1) := le_antisymm (by rw [← ht]; exact h1) hle
      have hjk' : k = j + 1 := by
        by_contra hne
        have := hmono (j + 1) k (by omega) (by omega)
        rw [hk2] at this
        exact absurd this (lt_irrefl _)
      rw [ht] at h5
      have hvb : v = b := by
        have := mul_right_cancel₀ hd' h5
        linarith
      rw [hvb, hjk', hjb]
    · subst hjk
      have hab : a = b := by
        rw [hja, hjb] at heq
        exact (Option.some.inj heq).symm
      rw [hab, sub_self, zero_mul] at h5
      have hvb : v = b := by
        rcases mul_eq_zero.mp h5 with e | e
        · linarith
        · exact absurd e hd'
      rw [hvb, ← hab, hja]
    · have hle : elapsed w out (k + 1) ≤ elapsed w out j := by
        rcases Nat.eq_or_lt_of_le (Nat.succ_le_of_lt hjk) with e | e
        · exact le_of_eq (by rw [← e])
        · exact (hmono _ _ e (by omega)).le
      have ht : (t : Rat) = elapsed w out j := le_antisymm (le_trans h2 hle) h3
      have hk2 : elapsed w out (k + 1) = elapsed w out j := le_antisymm hle (by rw [← ht]; exact h2)
      have hjk' : j = k + 1 := by
        by_contra hne
        have := hmono (k + 1) j (by omega) (by omega)
        rw [hk2] at this
        exact absurd this (lt_irrefl _)
      rw [ht, sub_self, mul_zero] at h5
      have hva : v = a := by
        rcases mul_eq_zero.mp h5 with e | e
        · linarith
        · exact absurd e hd'
      rw [hva, ← heq, ← hjk', hja]
  · exfalso
    rw [hI] at h3
    rcases Nat.eq_or_lt_of_le (by omega : k + 1 ≤ 999) with e | e
    · rw [e] at h2; linarith
    · have := hmono (k + 1) 999 e (by decide); linarith

/-- C75 fails at the start: every step waveform begins at half the rate of its first window -/
theorem C75_start_violated (w : Wave) (rates mesh : List Rat) (smooth : List Rat × List Rat)
    (cs cm out : List Rat) (h : uniform w rates mesh smooth = .ok (cs, cm))
    (ho : multistep w rates mesh = .ok out) (hd : Divides w mesh) (hp : ∀ c ∈ out, 0 < c)
    (v r : Rat) (hv : cm[0]? = some v) (hr : rates[0]? = some r) : v = r / 2 := by
  have hlt := divides_lt hd
  have hI : out.length = 1000 := by rw [(multistep_ok ho).2.2, List.length_map, length_socVector]
  have h0 := ((C75_windows_partial w rates mesh out ho hd).2 0 (by decide)).2.2.1 r rfl hlt hr
  have hs := share_pos hlt
  have hc : 0 < r / 2 := hp _ (List.mem_of_getElem? h0)
  have he : 0 < elapsed w out 0 := by
    rw [elapsed_zero w out _ h0]; positivity
  rcases (C75_seconds w rates mesh smooth cs cm out h ho hlt hp).2.2 0 v hv with ⟨h3, h4⟩ | ⟨j, a, b, hja, hjb, h3, h4, h5⟩ | ⟨h3, h4⟩
  · rw [h0] at h4; exact (Option.some.inj h4).symm
  · exfalso
    simp only [Nat.cast_zero] at h3
    have hj : j < out.length := (List.getElem?_eq_some_iff.mp hja).1
    rcases Nat.eq_zero_or_pos j with e | e
    · rw [e] at h3; linarith
    · have := elapsed_lt w out hs hp e hj; linarith
  · exfalso
    rw [hI] at h3
    simp only [Nat.cast_zero] at h3
    have := elapsed_lt w out hs hp (i := 0) (j := 999) (by decide) (by omega)
    linarith

/-- C75 fails for windows out of order: the call accepts them and adds up the rates of windows that
overlap -/
theorem C75_overlap_violated :
    ∃ (w : Wave) (rates mesh out : List Rat), ¬ mesh.Pairwise (· < ·) ∧
      multistep w rates mesh = .ok out ∧
      (∀ smooth : List Rat × List Rat, endTime smooth.1 = endTime (timeVector (socVector w) out) →
        ∃ r, uniform w rates mesh smooth = .ok r) ∧
      ∃ k : Nat, out[k]? = some 3 ∧ ∀ r ∈ rates, r < 3 := by
  refine ⟨⟨1, 0, 999 / 1000⟩, [1, 1, 2, 1], [0, 1 / 2, 3 / 10, 999 / 1000], _, by decide +kernel, rfl, ?_, ?_⟩
  · intro smooth hs
    have hm : multistep ⟨1, 0, 999 / 1000⟩ [1, 1, 2, 1] [0, 1 / 2, 3 / 10, 999 / 1000] = .ok
      ((socVector ⟨1, 0, 999 / 1000⟩).map
        (rateAt ⟨1, 0, 999 / 1000⟩ [1, 1, 2, 1] [0, 1 / 2, 3 / 10, 999 / 1000])) := rfl
    generalize hout : (socVector ⟨1, 0, 999 / 1000⟩).map
        (rateAt ⟨1, 0, 999 / 1000⟩ [1, 1, 2, 1] [0, 1 / 2, 3 / 10, 999 / 1000]) = out at hm hs
    have hz : out.any (fun c => c == 0) = false := by
      rw [← hout]; decide +kernel
    have h1 : meshAccepted [0, 1 / 2, 3 / 10, 999 / 1000] = true := by decide +kernel
    have h2 : increasing (meshMid ⟨1, 0, 999 / 1000⟩ [0, 1 / 2, 3 / 10, 999 / 1000]) = true := by
      decide +kernel
    have hlen : out.length = 1000 := by rw [← hout, List.length_map, length_socVector]
    have he : ∃ n, endTime (timeVector (socVector ⟨1, 0, 999 / 1000⟩) out) = .ok n := by
      unfold endTime
      split
      · rename_i h
        rw [maxN_none] at h
        exact absurd ⟨_, List.mem_map.mpr ⟨_, List.mem_of_getElem?
          (timeVector_get ⟨1, 0, 999 / 1000⟩ out hlen 0 (by decide)), rfl⟩⟩ h
      · exact ⟨_, rfl⟩
    obtain ⟨n, hn⟩ := he
    unfold uniform
    rw [h1, hm]
    simp only [Bool.true_eq_false, if_false, h2, hz, Bool.false_eq_true]
    rw [hs, hn]
    simp
  · exact ⟨400, by decide +kernel, by decide +kernel⟩

theorem middles_bound (a : Rat) (l : List Rat) (h : (a :: l).Pairwise (· < ·)) (c z : Rat)
    (hc : c < a ∨ l ≠ [] ∧ c ≤ a) (hz : (a :: l).getLastD 0 < z) :
    increasing (c :: middles (a :: l) ++ [(a :: l).getLastD 0, z]) = true := by
  induction l generalizing a c with
  | nil =>
    rcases hc with hc | hc
    · simp [middles, increasing, hc]; simpa using hz
    · exact absurd rfl hc.1
  | cons b l ih =>
    have hab : a < b := (List.pairwise_cons.mp h).1 b List.mem_cons_self
    have hca : c ≤ a := hc.elim le_of_lt (fun h => h.2)
    have e : (a :: b :: l).getLastD 0 = (b :: l).getLastD 0 := by
      simp [List.getLastD_eq_getLast?, List.getLast?_cons_cons]
    rw [e] at hz ⊢
    have := ih b (List.pairwise_cons.mp h).2 ((a + b) / 2) (Or.inl (by linarith)) hz
    rw [middles, List.cons_append, List.cons_append, increasing, decide_eq_true (by linarith), Bool.true_and]
    exact this

/-- C75: windows in order with positive rates are accepted when the smooth curve takes as long -/
theorem C75_accepts (w : Wave) (rates mesh out : List Rat) (ho : multistep w rates mesh = .ok out)
    (hd : Divides w mesh) (hf : 0 < w.socF) (hp : ∀ c ∈ out, 0 < c) (smooth : List Rat × List Rat)
    (hs : endTime smooth.1 = endTime (timeVector (socVector w) out)) :
    ∃ r, uniform w rates mesh smooth = .ok r := by
  have hI : out.length = 1000 := by rw [(multistep_ok ho).2.2, List.length_map, length_socVector]
  have hlt := divides_lt hd
  rw [endTime_elapsed hI (share_pos hlt) hp] at hs
  have h1 : meshAccepted mesh = true := by
    have := hd.1
    clear hd ho
    induction mesh with
    | nil => rfl
    | cons a l ih =>
      cases l with
      | nil => rfl
      | cons b l =>
        have hab : a < b := (List.pairwise_cons.mp this).1 b List.mem_cons_self
        rw [meshAccepted, decide_eq_true (by linarith [sub_pos.mpr hab] : b - a ≠ 0), Bool.true_and]
        exact ih (List.pairwise_cons.mp this).2
  have h2 : increasing (meshMid w mesh) = true := by
    obtain ⟨hp, hh, hl, hlen⟩ := hd
    have e := getLastD_eq hl
    clear ho h1
    unfold meshMid
    match mesh, hh, hlen, hp, e with
    | a :: b :: l, hh, _, hp, e =>
      simp only [List.head?_cons, Option.some.injEq] at hh
      subst hh
      apply middles_bound _ _ hp
      · exact Or.inr ⟨by simp, le_refl _⟩
      · rw [e]; linarith
  have h3 : out.any (fun c => c == 0) = false := by
    rw [List.any_eq_false]
    intro c hc
    have := hp c hc
    simp [this.ne']
  unfold uniform
  rw [h1, ho]
  simp only [Bool.true_eq_false, if_false, h2, h3, Bool.false_eq_true]
  rw [hs, endTime_elapsed hI (share_pos hlt) hp]
  simp

-- three windows at 2C, 1C and 1.5C meet the hypotheses, and the waveform begins at 1C
def exWave : Wave := ⟨1 / 2, 1 / 10, 7 / 10⟩

example : Divides exWave [1 / 10, 3 / 10, 5 / 10, 7 / 10] :=
  ⟨by decide +kernel, rfl, rfl, by decide⟩

example : (multistep exWave [2, 1, 3 / 2, 1 / 2] [1 / 10, 3 / 10, 5 / 10, 7 / 10]).toOption.map
    (fun l => [l[0]?, l[1]?, l[333]?, l[400]?, l[999]?]) =
    some [some 1, some 2, some (3 / 2), some 1, some (7 / 8)] := by decide +kernel

example : ((multistep exWave [2, 1, 3 / 2, 1 / 2] [1 / 10, 3 / 10, 5 / 10, 7 / 10]).toOption.map
    (fun l => l.all (fun c => decide (0 < c)))) = some true := by decide +kernel

example : Inside [1 / 10, 3 / 10, 5 / 10, 7 / 10] 1 (socAt exWave 400) :=
  ⟨3 / 10, 5 / 10, rfl, rfl, by decide +kernel, by decide +kernel⟩

/-! ### Charging files (C76) -/

theorem chosen_file {c : Charging} {cur : List Rat} {m : Rat} (hmax : maxN (cur.map some) = some m)
    (hp : ∀ x ∈ cur, 0 ≤ x) (h0 : m ≠ 0) {ls : List Waveform.Line}
    (hg : Waveform.generate (chargingConfig c m) .current cur = .ok ls) :
    List.Forall₂ (fun x o => Prescribes (c.capacity * x) o) cur (expand ls) := by
  obtain ⟨h1, h2⟩ := maxN_some _ _ hmax
  have habs : ∀ x ∈ cur, absR x = x := by
    intro x hx
    have := hp x hx
    unfold absR
    rw [if_neg (not_lt.mpr this)]
  have hpk : Peak cur m := by
    obtain ⟨x, hx, e⟩ := List.mem_map.mp h1
    cases e
    refine ⟨⟨m, hx, habs m hx⟩, ?_⟩
    intro y hy
    rw [habs y hy]
    exact h2 y (List.mem_map.mpr ⟨y, hy, rfl⟩)
  obtain ⟨ls', hls, hf⟩ := Props.Waveform.C38_reproduces (chargingConfig c m) .current cur m hpk h0
  rw [hg] at hls
  cases hls
  refine hf.imp ?_
  intro x o h
  have : x / m * (chargingConfig c m).valueScale = c.capacity * x := by
    simp only [chargingConfig]
    field_simp
  rwa [this] at h

/-- C76: the file of a charging waveform prescribes, second by second, the nominal capacity times the
C-rate of the requested kind of curve, at most the allowed rate, as a current limited at the requested
voltage; its name is short and made of project, kind and number -/
theorem C76_file (c : Charging) (smooth : List Rat × List Rat) (maxRate : Rat) (name : Str)
    (ls : List Waveform.Line) (h : insertCharging c smooth maxRate = .ok (name, ls)) :
    ∃ cs cm cur : List Rat,
      uniform ⟨c.rate4, c.startSoc, c.fastSocLimit⟩ [c.rate1, c.rate2, c.rate3, c.rate4]
        [c.startSoc, c.soc1, c.soc2, c.fastSocLimit] smooth = .ok (cs, cm) ∧
      (c.kind = "smooth".toList ∧ cur = cs ∨ c.kind = "step".toList ∧ cur = cm) ∧
      (∀ x ∈ cur, x ≤ maxRate) ∧
      ((∀ x ∈ cur, 0 < x) → List.Forall₂ (fun x o => Prescribes (c.capacity * x) o) cur (expand ls)) ∧
      (∀ l ∈ ls, l.controlMode = "I".toList ∧
        (l.state = "C".toList → l.limitMode = "V".toList ∧
          l.limitValue = c.cutoffVoltage - c.voltageOffset ∧ l.endMode = "V".toList ∧
          l.operation = ">=".toList ∧ l.endModeValue = 425 / 100) ∧
        (l.state = "D".toList → l.limitMode = "V".toList ∧ l.limitValue = 27 / 10 ∧ l.endMode = "V".toList ∧
          l.operation = "<=".toList ∧ l.endModeValue = 25 / 10)) ∧
      name = c.project ++ "_".toList ++ c.kind ++ "_".toList ++ (toString c.seqNum).toList ∧
      name.length < 25 := by
  unfold insertCharging at h
  split at h
  · cases h
  · rename_i cs cm hu
    split at h
    · rename_i a b ha hb
      have main : ∀ (cur : List Rat) (m : Rat), maxN (cur.map some) = some m → m ≤ maxRate →
          (c.kind = "smooth".toList ∧ cur = cs ∨ c.kind = "step".toList ∧ cur = cm) →
          (if 25 ≤ (chargingName c).length then Except.error Err.assertionError
            else (Waveform.generate (chargingConfig c m) .current cur).map
              (fun ls => (chargingName c, ls))) = .ok (name, ls) →
          ∃ cs cm cur : List Rat,
          uniform ⟨c.rate4, c.startSoc, c.fastSocLimit⟩ [c.rate1, c.rate2, c.rate3, c.rate4]
            [c.startSoc, c.soc1, c.soc2, c.fastSocLimit] smooth = .ok (cs, cm) ∧
          (c.kind = "smooth".toList ∧ cur = cs ∨ c.kind = "step".toList ∧ cur = cm) ∧
          (∀ x ∈ cur, x ≤ maxRate) ∧
          ((∀ x ∈ cur, 0 < x) → List.Forall₂ (fun x o => Prescribes (c.capacity * x) o) cur (expand ls)) ∧
          (∀ l ∈ ls, l.controlMode = "I".toList ∧
            (l.state = "C".toList → l.limitMode = "V".toList ∧
              l.limitValue = c.cutoffVoltage - c.voltageOffset ∧ l.endMode = "V".toList ∧
              l.operation = ">=".toList ∧ l.endModeValue = 425 / 100) ∧
        (l.state = "D".toList → l.limitMode = "V".toList ∧ l.limitValue = 27 / 10 ∧ l.endMode = "V".toList ∧
          l.operation = "<=".toList ∧ l.endModeValue = 25 / 10)) ∧
          name = c.project ++ "_".toList ++ c.kind ++ "_".toList ++ (toString c.seqNum).toList ∧
          name.length < 25 := by
        intro cur m hm hle hcur hgen
        split at hgen
        · cases hgen
        · rename_i hlen
          cases hg : Waveform.generate (chargingConfig c m) .current cur with
          | error e => rw [hg] at hgen; cases hgen
          | ok ls' =>
            rw [hg] at hgen
            simp only [Except.map, Except.ok.injEq, Prod.mk.injEq] at hgen
            obtain ⟨hn, hl⟩ := hgen
            subst hl
            obtain ⟨hin, hall⟩ := maxN_some _ _ hm
            refine ⟨cs, cm, cur, hu, hcur, ?_, ?_, ?_, ?_, ?_⟩
            · intro x hx
              exact le_trans (hall x (List.mem_map.mpr ⟨x, hx, rfl⟩)) hle
            · intro hpos
              obtain ⟨x, hx, e⟩ := List.mem_map.mp hin
              cases e
              exact chosen_file hm (fun x hx => (hpos x hx).le) (hpos m hx).ne' hg
            · intro l hl
              obtain ⟨h1, -, -, -, h5⟩ := Props.Waveform.C38_columns _ _ _ ls' hg l hl
              constructor
              · rcases h5 with e | ⟨e, -⟩ <;> exact e
              · constructor
                · intro hs
                  rcases h1 with ⟨-, h⟩ | ⟨e, -⟩
                  · exact h
                  · rw [hs] at e; exact absurd e (by decide)
                · intro hs
                  rcases h1 with ⟨e, -⟩ | ⟨-, h⟩
                  · rw [hs] at e; exact absurd e (by decide)
                  · exact h
            · rw [← hn]; simp [chargingName]
            · rw [← hn]; omega
      split at h
      · cases h
      · rename_i hmax
        rw [not_or, not_lt, not_lt] at hmax
        split at h
        · rename_i hk
          exact main cs a ha hmax.1 (Or.inl ⟨hk, rfl⟩) h
        · split at h
          · rename_i hk
            exact main cm b hb hmax.2 (Or.inr ⟨hk, rfl⟩) h
          · cases h
    · cases h

/-- C76: a curve above the allowed rate is refused, as is another kind of curve -/
theorem C76_refused (c : Charging) (smooth : List Rat × List Rat) (maxRate : Rat) (cs cm : List Rat)
    (hu : uniform ⟨c.rate4, c.startSoc, c.fastSocLimit⟩ [c.rate1, c.rate2, c.rate3, c.rate4]
        [c.startSoc, c.soc1, c.soc2, c.fastSocLimit] smooth = .ok (cs, cm))
    (h : (∃ x ∈ cs ++ cm, maxRate < x) ∨ (c.kind ≠ "smooth".toList ∧ c.kind ≠ "step".toList)) :
    ∃ e, insertCharging c smooth maxRate = .error e := by
  cases hr : insertCharging c smooth maxRate with
  | error e => exact ⟨e, rfl⟩
  | ok r =>
    exfalso
    obtain ⟨name, ls⟩ := r
    unfold insertCharging chargingWave at hr
    rw [hu] at hr
    simp only at hr
    split at hr
    · rename_i a b ha hb
      split at hr
      · cases hr
      · rename_i hmax
        rw [not_or, not_lt, not_lt] at hmax
        rcases h with ⟨x, hx, hlt⟩ | ⟨h1, h2⟩
        · rcases List.mem_append.mp hx with hx | hx
          · have := (maxN_some _ _ ha).2 x (List.mem_map.mpr ⟨x, hx, rfl⟩)
            linarith [hmax.1]
          · have := (maxN_some _ _ hb).2 x (List.mem_map.mpr ⟨x, hx, rfl⟩)
            linarith [hmax.2]
        · rw [if_neg h1, if_neg h2] at hr
          cases hr
    · cases hr

theorem follows_le {w : Wave} {I : List Rat} {t v hi : Rat} (hs : 0 < share w) (hp : ∀ c ∈ I, 0 < c)
    (hI : ∀ c ∈ I, c ≤ hi) (h : Follows w I t v) : v ≤ hi := by
  rcases h with ⟨-, h⟩ | ⟨k, a, b, ha, hb, h1, h2, h3⟩ | ⟨-, h⟩
  · exact hI v (List.mem_of_getElem? h)
  · have hlt := elapsed_lt w I hs hp (Nat.lt_succ_self k) (List.getElem?_eq_some_iff.mp hb).1
    have h4 := hI a (List.mem_of_getElem? ha)
    have h5 := hI b (List.mem_of_getElem? hb)
    generalize elapsed w I k = x at *
    generalize elapsed w I (k + 1) = y at *
    by_contra hc
    rw [not_le] at hc
    have d : 0 < y - x := sub_pos.mpr hlt
    have e1 : (hi - a) * (y - x) < (v - a) * (y - x) := by nlinarith
    have e2 : (b - a) * (t - x) ≤ (hi - a) * (t - x) := by nlinarith
    have e3 : (hi - a) * (t - x) ≤ (hi - a) * (y - x) := by nlinarith
    linarith
  · exact hI v (List.mem_of_getLast? h)

/-- C76: a request with its windows in order, positive rates up to the allowed one and a short name is
accepted when the smooth curve takes as long and keeps to the allowed rate too -/
theorem C76_accepts (c : Charging) (smooth : List Rat × List Rat) (maxRate : Rat) (out : List Rat)
    (hk : c.kind = "smooth".toList ∨ c.kind = "step".toList)
    (hsoc : 0 < c.startSoc ∧ c.startSoc < c.soc1 ∧ c.soc1 < c.soc2 ∧ c.soc2 < c.fastSocLimit)
    (hr : ∀ r ∈ [c.rate1, c.rate2, c.rate3, c.rate4], 0 < r ∧ r ≤ maxRate)
    (ho : multistep ⟨c.rate4, c.startSoc, c.fastSocLimit⟩ [c.rate1, c.rate2, c.rate3, c.rate4]
      [c.startSoc, c.soc1, c.soc2, c.fastSocLimit] = .ok out)
    (hlong : 1 ≤ elapsed ⟨c.rate4, c.startSoc, c.fastSocLimit⟩ out 999)
    (hs : endTime smooth.1 = .ok (roundEven (elapsed ⟨c.rate4, c.startSoc, c.fastSocLimit⟩ out 999)))
    (hb : ∀ t : Nat, interp1d smooth.1 smooth.2 t ≤ maxRate)
    (hn : (c.project ++ "_".toList ++ c.kind ++ "_".toList ++ (toString c.seqNum).toList).length < 25) :
    ∃ r, insertCharging c smooth maxRate = .ok r := by
  have hd : Divides ⟨c.rate4, c.startSoc, c.fastSocLimit⟩ [c.startSoc, c.soc1, c.soc2, c.fastSocLimit] := by
    obtain ⟨h0, h1, h2, h3⟩ := hsoc
    refine ⟨?_, rfl, rfl, by simp⟩
    simp only [List.pairwise_cons, List.mem_cons, List.not_mem_nil, or_false, forall_eq_or_imp, forall_eq,
      List.Pairwise.nil, and_true, implies_true, false_implies]
    refine ⟨⟨h1, ?_, ?_⟩, ⟨h2, ?_⟩, h3⟩ <;> linarith
  obtain ⟨lo, hlo, hle⟩ : ∃ lo : Rat, 0 < lo ∧ ∀ r ∈ [c.rate1, c.rate2, c.rate3, c.rate4], lo ≤ r := by
    refine ⟨min (min c.rate1 c.rate2) (min c.rate3 c.rate4), ?_, ?_⟩
    · exact lt_min (lt_min (hr _ (by simp)).1 (hr _ (by simp)).1) (lt_min (hr _ (by simp)).1 (hr _ (by simp)).1)
    · intro r hr'
      simp only [List.mem_cons, List.not_mem_nil, or_false] at hr'
      rcases hr' with e | e | e | e <;> rw [e] <;> simp
  have hbd := C75_bounds _ _ _ out ho hd lo maxRate hlo.le (fun r h => ⟨hle r h, (hr r h).2⟩)
    ⟨hle c.rate4 (by simp), (hr c.rate4 (by simp)).2⟩
  have hp : ∀ x ∈ out, 0 < x := fun x hx => by linarith [(hbd x hx).1]
  have hlt := divides_lt hd
  have hI : out.length = 1000 := by rw [(multistep_ok ho).2.2, List.length_map, length_socVector]
  obtain ⟨⟨cs, cm⟩, hu⟩ := C75_accepts _ _ _ out ho hd
    (by simp only; linarith [hsoc.1, hsoc.2.1, hsoc.2.2.1, hsoc.2.2.2]) hp smooth
    (by rw [hs, endTime_elapsed hI (share_pos hlt) hp])
  obtain ⟨h1, h2, h3⟩ := C75_seconds _ _ _ smooth cs cm out hu ho hlt hp
  rw [Proof.rounds_iff] at h1
  have hpos : 0 < cm.length := by
    have := Proof.Waveform.roundEven_mono hlong
    have e : roundEven 1 = 1 := by decide +kernel
    rw [e] at this
    omega
  have hcs : ∀ x ∈ cs, x ≤ maxRate := by
    obtain ⟨_, n, -, -, -, -, hcs⟩ := uniform_ok hu
    intro x hx
    rw [hcs] at hx
    obtain ⟨t, -, rfl⟩ := List.mem_map.mp hx
    exact hb t
  have hcm : ∀ x ∈ cm, x ≤ maxRate := by
    intro x hx
    obtain ⟨t, ht⟩ := List.mem_iff_getElem?.mp hx
    exact follows_le (share_pos hlt) hp (fun y hy => (hbd y hy).2) (h3 t x ht)
  have hmax : ∀ l : List Rat, 0 < l.length → (∀ x ∈ l, x ≤ maxRate) →
      ∃ m, maxN (l.map some) = some m ∧ m ≤ maxRate := by
    intro l hl hle
    cases hm : maxN (l.map some) with
    | none =>
      rw [maxN_none] at hm
      exact absurd ⟨l[0], List.mem_map.mpr ⟨_, List.getElem_mem hl, rfl⟩⟩ hm
    | some m =>
      obtain ⟨x, hx, e⟩ := List.mem_map.mp (maxN_some _ _ hm).1
      cases e
      exact ⟨m, rfl, hle m hx⟩
  obtain ⟨a, ha, ha'⟩ := hmax cs (by omega) hcs
  obtain ⟨b, hb1, hb'⟩ := hmax cm hpos hcm
  have hname : ¬ 25 ≤ (chargingName c).length := by
    have : chargingName c = c.project ++ "_".toList ++ c.kind ++ "_".toList ++ (toString c.seqNum).toList := by
      simp [chargingName]
    rw [this]; omega
  have hgen : ∀ (l : List Rat) (m : Rat), maxN (l.map some) = some m →
      ∃ ls, Waveform.generate (chargingConfig c m) .current l = .ok ls := by
    intro l m hm
    unfold Waveform.generate Waveform.scaled
    cases hx : maxN (l.map (fun x => some (absR x))) with
    | none =>
      rw [maxN_none] at hx
      obtain ⟨x, hx', e⟩ := List.mem_map.mp (maxN_some _ _ hm).1
      exact absurd ⟨_, List.mem_map.mpr ⟨x, hx', rfl⟩⟩ hx
    | some y => exact ⟨_, rfl⟩
  unfold insertCharging chargingWave
  rw [hu]
  simp only [ha, hb1]
  rw [if_neg (by rw [not_or, not_lt, not_lt]; exact ⟨ha', hb'⟩)]
  by_cases hkk : c.kind = "smooth".toList
  · rw [if_pos hkk, if_neg hname]
    obtain ⟨ls, hls⟩ := hgen cs a ha
    rw [hls]
    exact ⟨_, rfl⟩
  · have hst : c.kind = "step".toList := hk.resolve_left hkk
    rw [if_neg hkk, if_pos hst, if_neg hname]
    obtain ⟨ls, hls⟩ := hgen cm b hb1
    rw [hls]
    exact ⟨_, rfl⟩

-- a request that meets the hypotheses (with the smooth curve equal to the step curve)
example : ∃ r, insertCharging ⟨"PreDiag".toList, "step".toList, 240, 1 / 10, 2, 1, 3 / 2, 1 / 2, 3 / 10,
    5 / 10, 7 / 10, 42 / 10, 1 / 20, 48 / 10⟩
    (match multistep exWave [2, 1, 3 / 2, 1 / 2] [1 / 10, 3 / 10, 5 / 10, 7 / 10] with
      | .ok out => (timeVector (socVector exWave) out, out)
      | .error _ => ([], [])) 3 = .ok r := by
  have hm : ∃ out, multistep exWave [2, 1, 3 / 2, 1 / 2] [1 / 10, 3 / 10, 5 / 10, 7 / 10] = .ok out := ⟨_, rfl⟩
  obtain ⟨out, ho⟩ := hm
  rw [ho]
  simp only
  have hd : Divides exWave [1 / 10, 3 / 10, 5 / 10, 7 / 10] := ⟨by decide +kernel, rfl, rfl, by decide⟩
  have hlt := divides_lt hd
  have hI : out.length = 1000 := by rw [(multistep_ok ho).2.2, List.length_map, length_socVector]
  have hbd := C75_bounds _ _ _ out ho hd (1 / 2) 2 (by norm_num) (by decide +kernel) (by decide +kernel)
  have hp : ∀ x ∈ out, 0 < x := fun x hx => by linarith [(hbd x hx).1]
  refine C76_accepts _ _ 3 out (Or.inr rfl) (by decide +kernel) (by decide +kernel) ho ?_
    (endTime_elapsed hI (share_pos hlt) hp) ?_ (by decide)
  · have hc := ((C75_windows_partial _ _ _ out ho hd).2 0 (by decide)).2.2.1 2 rfl hlt rfl
    have h1 := elapsed_zero exWave out _ hc
    have h2 := elapsed_lt exWave out (share_pos hlt) hp (i := 0) (j := 999) (by decide) (by omega)
    have h3 : (1 : Rat) ≤ 3600 * share exWave / (2 / 2) := by decide +kernel
    have h4 : (1 : Rat) ≤ elapsed exWave out 999 := by linarith
    exact h4
  · intro t
    have := follows_le (share_pos hlt) hp (fun y hy => (hbd y hy).2)
      (interp1d_follows exWave out hI (share_pos hlt) hp t)
    simp only
    linarith

/-! ### Names (C74) -/

theorem digits_clean (n : Nat) : '_' ∉ (toString n).toList := by
  intro h
  rw [Nat.toString_eq_repr, Nat.toList_repr] at h
  exact absurd (Nat.isDigit_of_mem_toDigits (b := 10) (by decide) (by decide) h) (by decide)

theorem digits_inj {n m : Nat} (h : (toString n).toList = (toString m).toList) : n = m := by
  rw [Nat.toString_eq_repr, Nat.toList_repr, Nat.toString_eq_repr, Nat.toList_repr] at h
  have h2 := congrArg (fun l => Nat.ofDigitChars 10 l 0) h
  simpa [Nat.ofDigitChars_ten_toDigits] using h2

/-- C74: charging waveforms of different requests (project, kind, number) have different names -/
theorem C74_charging (c c' : Charging) (hk : c.kind = "smooth".toList ∨ c.kind = "step".toList)
    (hk' : c'.kind = "smooth".toList ∨ c'.kind = "step".toList) (h : chargingName c = chargingName c') :
    c.project = c'.project ∧ c.kind = c'.kind ∧ c.seqNum = c'.seqNum := by
  unfold chargingName at h
  have h1 := Proof.Features.split_last (a := c.project ++ '_' :: c.kind) (b := c'.project ++ '_' :: c'.kind)
    (digits_clean c.seqNum) (digits_clean c'.seqNum) (by simpa using h)
  have hc : '_' ∉ c.kind := by rcases hk with e | e <;> rw [e] <;> decide
  have hc' : '_' ∉ c'.kind := by rcases hk' with e | e <;> rw [e] <;> decide
  have h2 := Proof.Features.split_last hc hc' h1.1
  exact ⟨h2.1, h2.2, digits_inj h1.2⟩

theorem int_inj {n m : Int} (h : (toString n).toList = (toString m).toList) : n = m := by
  rw [Int.toString_eq_repr, Int.toString_eq_repr] at h
  have hd : ∀ (k : Nat) (l : Str), k.repr.toList ≠ '-' :: l := by
    intro k l e
    rw [Nat.toList_repr] at e
    have : '-' ∈ Nat.toDigits 10 k := by rw [e]; exact List.mem_cons_self
    exact absurd (Nat.isDigit_of_mem_toDigits (b := 10) (by decide) (by decide) this) (by decide)
  have hm : ∀ s : String, ("-" ++ s).toList = '-' :: s.toList := by
    intro s; simp
  cases n with
  | ofNat n =>
    cases m with
    | ofNat m =>
      have : n = m := digits_inj (by rw [Nat.toString_eq_repr, Nat.toString_eq_repr]; exact h)
      rw [this]
    | negSucc m =>
      have h' : n.repr.toList = ("-" ++ (m + 1).repr).toList := h
      rw [hm] at h'
      exact absurd h' (hd _ _)
  | negSucc n =>
    cases m with
    | ofNat m =>
      have h' : ("-" ++ (n + 1).repr).toList = m.repr.toList := h
      rw [hm] at h'
      exact absurd h'.symm (hd _ _)
    | negSucc m =>
      have h' : ("-" ++ (n + 1).repr).toList = ("-" ++ (m + 1).repr).toList := h
      rw [hm, hm] at h'
      have : n + 1 = m + 1 := digits_inj (by
        rw [Nat.toString_eq_repr, Nat.toString_eq_repr]; exact (List.cons.inj h').2)
      rw [Nat.succ.inj this]

/-- C74: driving waveforms with the same name have the same profile, repetitions and whole watts.
Missing: the rest of the request, see `C74_driving_violated`. -/
theorem C74_driving_partial (p p' : Str) (d d' : Waveform.Driving) (hp : '_' ∉ p) (hp' : '_' ∉ p')
    (h : drivingName p d = drivingName p' d') :
    p = p' ∧ d.repeats = d'.repeats ∧
      (d.maxProfilePower * d.powerScaling).num.tdiv (d.maxProfilePower * d.powerScaling).den =
      (d'.maxProfilePower * d'.powerScaling).num.tdiv (d'.maxProfilePower * d'.powerScaling).den := by
  unfold drivingName at h
  have e : "_x".toList = ['_', 'x'] := rfl
  simp only [e, List.append_assoc, List.cons_append, List.nil_append] at h
  obtain ⟨h1, h2⟩ := Proof.Features.split_first hp hp' h
  obtain ⟨h3, h4⟩ := Proof.Features.split_first (digits_clean _) (digits_clean _) (List.cons.inj h2).2
  exact ⟨h1, digits_inj h3, int_inj (List.append_cancel_right h4)⟩

/-- C74 fails for driving waveforms: two requests with different voltage limits and powers share a
name, though their files differ -/
theorem C74_driving_violated :
    ∃ (p : Str) (d d' : Waveform.Driving), drivingName p d = drivingName p d' ∧
      (Waveform.step Waveform.defaultConfig (.driving d)).2 ≠
        (Waveform.step Waveform.defaultConfig (.driving d')).2 := by
  refine ⟨"US06".toList, ⟨[-1, 2], 4, 40, 1, 3, 1⟩, ⟨[-1, 2], 41 / 10, 405 / 10, 1, 27 / 10, 1⟩, ?_, ?_⟩
  · have : (40 * 1 : Rat).num.tdiv (40 * 1 : Rat).den = (405 / 10 * 1 : Rat).num.tdiv (405 / 10 * 1 : Rat).den := by
      decide +kernel
    unfold drivingName
    simp only [this]
  · intro h
    have h2 := congrArg (fun r => r.toOption.map (List.map (fun l => (l.value, l.limitValue)))) h
    revert h2
    decide +kernel

/-! ### Power from speed (C77) -/

theorem slopesFrom_get (p : Rat × Rat) (l : List (Rat × Rat)) : (slopesFrom p l).length = l.length ∧
    ∀ (k : Nat) (y : Rat × Rat), l[k]? = some y → ∃ x, (p :: l)[k]? = some x ∧
      (slopesFrom p l)[k]? = some (match l[k + 1]? with
        | none => (y.2 - x.2) / (y.1 - x.1)
        | some z => slope (y.1 - x.1) (z.1 - y.1) x.2 y.2 z.2) := by
  induction l generalizing p with
  | nil => simp [slopesFrom]
  | cons a l ih =>
    cases l with
    | nil =>
      refine ⟨rfl, ?_⟩
      intro k y hy
      cases k with
      | zero =>
        simp only [List.getElem?_cons_zero, Option.some.injEq] at hy
        subst hy
        exact ⟨p, rfl, rfl⟩
      | succ k => simp at hy
    | cons b l =>
      obtain ⟨h1, h2⟩ := ih a
      refine ⟨by simp [slopesFrom, h1], ?_⟩
      intro k y hy
      cases k with
      | zero =>
        simp only [List.getElem?_cons_zero, Option.some.injEq] at hy
        subst hy
        exact ⟨p, rfl, rfl⟩
      | succ k =>
        rw [List.getElem?_cons_succ] at hy
        obtain ⟨x, hx, hs⟩ := h2 k y hy
        exact ⟨x, by simpa using hx, by simpa [slopesFrom] using hs⟩

theorem powerAt_eq (v a : Rat) : powerAt v a = carPower v a := by
  unfold powerAt carPower; ring

theorem scale_spec {units : Str} (hu : units = "mps".toList ∨ units = "kmph".toList) :
    ∃ s, unitScale units = .ok s ∧ ∀ v, metresPerSecond units v = some (v * s) := by
  rcases hu with e | e <;> subst e
  · refine ⟨1, by decide +kernel, ?_⟩
    intro v
    simp [metresPerSecond]
  · refine ⟨1000 / 3600, by decide +kernel, ?_⟩
    intro v
    have h1 : ¬ ("kmph".toList = "mps".toList) := by decide
    unfold metresPerSecond
    rw [if_neg h1, if_pos rfl]
    congr 1
    ring

/-- C77: for speeds in metres per second or kilometres per hour the power at every row is that of the
car at its speed and acceleration, and the times are kept.  Missing: miles per hour, see
`C77_mile_violated`. -/
theorem C77_power_partial (units : Str) (hu : units = "mps".toList ∨ units = "kmph".toList)
    (rows : List (Rat × Rat)) (hc : Clocked rows) (h2 : 2 ≤ rows.length) :
    ∃ out, powers units rows = .ok out ∧ out.length = rows.length ∧
      ∀ (k : Nat) (t v s : Rat), rows[k]? = some (t, v) → metresPerSecond units v = some s →
        ∃ a, Acceleration units rows k a ∧ out[k]? = some (t, carPower s a) := by
  obtain ⟨sc, hsc, hm⟩ := scale_spec hu
  match rows, h2 with
  | p :: q :: l, _ =>
    have hlen := slopesFrom_get (p.1, p.2 * sc) ((q :: l).map (fun r => (r.1, r.2 * sc)))
    have ho : powers units (p :: q :: l) = .ok (((p :: q :: l).map (fun r => (r.1, r.2 * sc))).zip
        ((q.2 * sc - p.2 * sc) / (q.1 - p.1) ::
          slopesFrom (p.1, p.2 * sc) ((q :: l).map (fun r => (r.1, r.2 * sc)))) |>.map
        (fun p => (p.1.1, powerAt p.1.2 p.2))) := by
      unfold powers
      rw [hsc]
      simp only [List.map_cons, slopes]
    refine ⟨_, ho, ?_, ?_⟩
    · simp only [List.length_map, List.length_zip, List.length_cons, hlen.1, List.length_map,
        Nat.min_self]
    · intro k t v s hk hs
      rw [hm] at hs
      cases hs
      have hlt : ∀ (i : Nat) (x y : Rat × Rat), (p :: q :: l)[i]? = some x →
          (p :: q :: l)[i + 1]? = some y → x.1 < y.1 := by
        intro i x y hx hy
        obtain ⟨hi, rfl⟩ := List.getElem?_eq_some_iff.mp hx
        obtain ⟨hj, rfl⟩ := List.getElem?_eq_some_iff.mp hy
        exact List.pairwise_iff_getElem.mp hc i (i + 1) hi hj (by omega)
      have hslope : ∀ (i : Nat) (x y : Rat × Rat), (p :: q :: l)[i]? = some x →
          (p :: q :: l)[i + 1]? = some y →
          Slope units (p :: q :: l) i ((y.2 * sc - x.2 * sc) / (y.1 - x.1)) := by
        intro i x y hx hy
        have h := sub_pos.mpr (hlt i x y hx hy)
        exact ⟨x.1, x.2, y.1, y.2, _, _, hx, hy, hm _, hm _, div_mul_cancel₀ _ h.ne'⟩
      cases k with
      | zero =>
        simp only [List.getElem?_cons_zero, Option.some.injEq] at hk
        subst hk
        refine ⟨_, Or.inl ⟨rfl, hslope 0 _ _ rfl rfl⟩, ?_⟩
        simp only [List.map_cons, List.zip_cons_cons, List.getElem?_cons_zero, powerAt_eq]
      | succ k =>
        have hk' : ((q :: l).map (fun r => (r.1, r.2 * sc)))[k]? = some (t, v * sc) := by
          rw [List.getElem?_cons_succ] at hk
          rw [List.getElem?_map, hk]; rfl
        obtain ⟨x', hx', hs'⟩ := hlen.2 k _ hk'
        have hx2 : ((p :: q :: l).map (fun r => (r.1, r.2 * sc)))[k]? = some x' := by
          simpa using hx'
        rw [List.getElem?_map, Option.map_eq_some_iff] at hx2
        obtain ⟨x, hx, hxe⟩ := hx2
        subst hxe
        have hout : ∀ a, (slopesFrom (p.1, p.2 * sc) ((q :: l).map (fun r => (r.1, r.2 * sc))))[k]? = some a →
            ((((p :: q :: l).map (fun r => (r.1, r.2 * sc))).zip
              ((q.2 * sc - p.2 * sc) / (q.1 - p.1) ::
                slopesFrom (p.1, p.2 * sc) ((q :: l).map (fun r => (r.1, r.2 * sc)))) |>.map
              (fun p => (p.1.1, powerAt p.1.2 p.2))))[k + 1]? = some (t, carPower (v * sc) a) := by
          intro a ha
          rw [List.getElem?_map]
          have : (((p :: q :: l).map (fun r => (r.1, r.2 * sc))).zip
              ((q.2 * sc - p.2 * sc) / (q.1 - p.1) ::
                slopesFrom (p.1, p.2 * sc) ((q :: l).map (fun r => (r.1, r.2 * sc)))))[k + 1]? =
              some ((t, v * sc), a) := by
            rw [List.getElem?_zip_eq_some]
            exact ⟨by simpa using hk', by simpa using ha⟩
          rw [this]
          simp only [Option.map_some, powerAt_eq]
        cases hz : (q :: l)[k + 1]? with
        | none =>
          have hz' : ((q :: l).map (fun r => (r.1, r.2 * sc)))[k + 1]? = none := by
            rw [List.getElem?_map, hz]; rfl
          rw [hz'] at hs'
          refine ⟨_, Or.inr (Or.inl ⟨by omega, ?_, ?_⟩), hout _ hs'⟩
          · have h3 := (List.getElem?_eq_some_iff.mp hk).1
            have h4 := List.getElem?_eq_none_iff.mp hz
            simp only [List.length_cons] at h3 h4 ⊢
            omega
          · exact hslope k x (t, v) hx hk
        | some z =>
          have hz' : ((q :: l).map (fun r => (r.1, r.2 * sc)))[k + 1]? = some (z.1, z.2 * sc) := by
            rw [List.getElem?_map, hz]; rfl
          rw [hz'] at hs'
          have hz2 : (p :: q :: l)[k + 1 + 1]? = some z := by rw [List.getElem?_cons_succ]; exact hz
          refine ⟨_, Or.inr (Or.inr ⟨k, _, _, x, (t, v), z, rfl, hslope k x (t, v) hx hk,
            hslope (k + 1) (t, v) z hk hz2, hx, hk, hz2, ?_⟩), hout _ hs'⟩
          have d1 := sub_pos.mpr (hlt k x (t, v) hx hk)
          have d2 := sub_pos.mpr (hlt (k + 1) (t, v) z hk hz2)
          simp only at d1 d2 ⊢
          unfold slope
          have d3 : t - x.1 + (z.1 - t) ≠ 0 := by linarith
          have e1 : z.1 - x.1 = (t - x.1) + (z.1 - t) := by ring
          rw [e1]
          generalize t - x.1 = h₁ at *
          generalize z.1 - t = h₂ at *
          have := d1.ne'
          have := d2.ne'
          field_simp
          ring

/-- C77: a car at rest neither takes nor gives power -/
theorem C77_rest (units : Str) (rows out : List (Rat × Rat)) (h : powers units rows = .ok out)
    (k : Nat) (t : Rat) (hk : rows[k]? = some (t, 0)) (t' p : Rat) (ho : out[k]? = some (t', p)) :
    t' = t ∧ p = 0 := by
  unfold powers at h
  split at h
  · cases h
  · rename_i s _
    simp only at h
    split at h
    · cases h
    · cases h
      rw [List.getElem?_map, Option.map_eq_some_iff] at ho
      obtain ⟨⟨x, a⟩, hx, e⟩ := ho
      rw [List.getElem?_zip_eq_some, List.getElem?_map, hk] at hx
      have hx1 := hx.1
      simp only [Option.map_some, Option.some.injEq] at hx1
      subst hx1
      simp only [Prod.mk.injEq] at e
      obtain ⟨e1, e2⟩ := e
      refine ⟨e1.symm, ?_⟩
      rw [← e2]
      unfold powerAt
      ring

/-- C77: the same speeds in kilometres per hour and in metres per second give the same powers -/
theorem C77_units_partial (rows : List (Rat × Rat)) :
    powers "kmph".toList rows = powers "mps".toList (rows.map (fun r => (r.1, r.2 * 1000 / 3600))) := by
  have h1 : unitScale "kmph".toList = .ok (1000 / 3600) := by decide +kernel
  have h2 : unitScale "mps".toList = .ok 1 := by decide +kernel
  unfold powers
  rw [h1, h2]
  have : (rows.map (fun r => (r.1, r.2 * 1000 / 3600))).map (fun r : Rat × Rat => (r.1, r.2 * 1)) =
      rows.map (fun r => (r.1, r.2 * (1000 / 3600))) := by
    rw [List.map_map]
    apply List.map_congr_left
    intro r _
    simp only [Function.comp_def, Prod.mk.injEq, true_and]
    ring
  simp only [this]

/-- C77: any other unit is refused -/
theorem C77_other (units : Str) (rows : List (Rat × Rat)) (h : metresPerSecond units 1 = none) :
    powers units rows = .error .notImplemented := by
  unfold metresPerSecond at h
  unfold powers unitScale
  split at h
  · cases h
  · rename_i h1
    split at h
    · cases h
    · rename_i h2
      split at h
      · cases h
      · rename_i h3
        rw [if_neg h3, if_neg h2, if_neg h1]

/-- C77 fails for miles per hour: a mile is taken as 1600 m, so the power at a steady speed is smaller
than that of the car at that speed -/
theorem C77_mile_violated (v : Rat) (hv : 0 < v) :
    ∃ s p, metresPerSecond "mph".toList v = some s ∧
      powers "mph".toList [(0, v), (1, v)] = .ok [(0, p), (1, p)] ∧ carPower s 0 < p := by
  have h1 : ¬ ("mph".toList = "mps".toList) := by decide
  have h2 : ¬ ("mph".toList = "kmph".toList) := by decide
  have h3 : unitScale "mph".toList = .ok (1600 / 3600) := by decide +kernel
  refine ⟨v * (1609344 / 1000) / 3600, carPower (v * (1600 / 3600)) 0, ?_, ?_, ?_⟩
  · unfold metresPerSecond
    rw [if_neg h1, if_neg h2, if_pos rfl]
  · unfold powers
    rw [h3]
    simp [slopes, slopesFrom, powerAt_eq]
  · unfold carPower
    have e : v * (1609344 / 1000) / 3600 = v * (1609344 / 3600000) := by ring
    rw [e]
    have h4 : v * (1600 / 3600) < v * (1609344 / 3600000) := by linarith
    have h5 : 0 < v * (1600 / 3600) := by positivity
    generalize v * (1600 / 3600) = x at *
    generalize v * (1609344 / 3600000) = y at *
    have h6 : x ^ 2 < y ^ 2 := by nlinarith
    have h7 : x ^ 2 * x < y ^ 2 * y := by nlinarith [sq_nonneg x]
    nlinarith

-- accelerating, steady and braking: the powers of three intervals
example : (powers "mps".toList [(0, 0), (1, 10), (2, 10), (3, 0)]).toOption.map (List.map Prod.snd) =
    some [0, -(7647 + 36.44375 : Rat) * 10, -(-7353 + 36.44375) * 10, 0] := by decide +kernel

example : Clocked [(0, 0), (1, 10), (2, 10), (3, 0)] := by unfold Clocked; decide +kernel

end Beep.Props.ChargeWave
