import Verif.Proof.Base
import Mathlib.Algebra.Order.Floor.Ring
import Mathlib.Data.Rat.Floor
import Verif.Spec.Units
/-
C29: unit conversion preserves the physical value.
-/
namespace Beep.Props.Units
open Beep Beep.Pandas Beep.Units Beep.Spec.Units

theorem pow10_eq (e : Int) : pow10 e = (10 : Rat) ^ e := by
  cases e with
  | ofNat n => simp [pow10]
  | negSucc n => simp [pow10, zpow_negSucc]

/-- a fraction with `n` explicit digits is an integer multiple of `10^-n` -/
theorem frac_int (ds : List (Fin 10)) : ∃ n : Int, fracValue ds * 10 ^ (explicitFigs ds) = n := by
  induction ds with
  | nil => exact ⟨0, by simp [fracValue]⟩
  | cons d ds ih =>
    obtain ⟨n, hn⟩ := ih
    simp only [explicitFigs, fracValue]
    cases he : explicitFigs ds with
    | zero =>
      rw [he, pow_zero, mul_one] at hn
      have hlt : fracValue ds < 1 ∧ 0 ≤ fracValue ds := by
        clear he hn
        induction ds with
        | nil => simp [fracValue]
        | cons c cs ih =>
          simp only [fracValue]
          have hc : (c.val : Rat) ≤ 9 := by have := c.isLt; exact_mod_cast (by omega : c.val ≤ 9)
          have hc0 : (0 : Rat) ≤ c.val := by positivity
          constructor <;> linarith [ih.1, ih.2]
      have h0 : fracValue ds = 0 := by
        rw [hn] at hlt ⊢
        have h1 : n < 1 := by exact_mod_cast hlt.1
        have h2 : 0 ≤ n := by exact_mod_cast hlt.2
        have : n = 0 := by omega
        rw [this]; rfl
      rw [h0]
      by_cases hd : d = 0
      · subst hd; exact ⟨0, by simp⟩
      · simp only [hd, if_false]; exact ⟨d.val, by push_cast; ring⟩
    | succ k =>
      rw [he] at hn
      refine ⟨d.val * 10 ^ (k + 1) + n, ?_⟩
      push_cast
      rw [← hn]
      ring

theorem value_int (d : Dec) (k : Nat) (h : d.sigFigs ≤ k) : ∃ n : Int, d.value * 10 ^ k = n := by
  obtain ⟨n, hn⟩ := frac_int d.frac
  unfold Dec.sigFigs at h
  obtain ⟨j, hj⟩ : ∃ j : Nat, (j : Int) = d.exp + k - (explicitFigs d.frac : Int) :=
    ⟨(d.exp + k - (explicitFigs d.frac : Int)).toNat, by omega⟩
  have hpow : pow10 d.exp * (10 : Rat) ^ k = 10 ^ (explicitFigs d.frac) * 10 ^ j := by
    rw [pow10_eq, ← zpow_natCast, ← zpow_natCast, ← zpow_natCast, ← zpow_add₀ (by norm_num),
      ← zpow_add₀ (by norm_num)]
    congr 1
    omega
  refine ⟨(if d.neg then -1 else 1) * (d.int * 10 ^ (explicitFigs d.frac) + n) * 10 ^ j, ?_⟩
  unfold Dec.value
  rw [mul_assoc, hpow]
  push_cast
  rw [← hn]
  ring

theorem roundEven_int (n : Int) : roundEven (n : Rat) = n := by
  have hf : Rat.floor (n : Rat) = n := Rat.floor_intCast n
  unfold roundEven
  simp only [hf, sub_self]
  norm_num

theorem roundEven_near (x : Rat) : |(roundEven x : Rat) - x| ≤ 1 / 2 := by
  have h1 : ((Rat.floor x : Int) : Rat) ≤ x := Int.floor_le x
  have h2 : x < (Rat.floor x : Int) + 1 := Int.lt_floor_add_one x
  unfold roundEven
  simp only
  rw [abs_le]
  split
  · constructor <;> linarith
  · split
    · push_cast; constructor <;> linarith
    · split
      · constructor <;> linarith
      · push_cast; constructor <;> linarith

theorem fmt3_exact (x : Rat) (n : Int) (h : x * 1000 = n) : fmt3 x = x := by
  unfold fmt3
  rw [h, roundEven_int, ← h]
  ring

theorem fmt3_near (x : Rat) : |fmt3 x - x| ≤ 1 / 2000 := by
  unfold fmt3
  have := roundEven_near (x * 1000)
  rw [abs_le] at *
  constructor <;> linarith [this.1, this.2]

/-- exactness of `fmt3` at scale `10^k` -/
theorem fmt3_scaled (d : Dec) (k : Nat) (h : d.sigFigs ≤ (k + 3 : Nat)) :
    fmt3 (d.value * 10 ^ k) = d.value * 10 ^ k := by
  obtain ⟨n, hn⟩ := value_int d (k + 3) h
  exact fmt3_exact _ n (by rw [← hn, pow_add]; ring)

/-- C29, voltages: a value with at most 6 decimals is written exactly, as volts when it is
at least 1 V with at most 3 decimals and as millivolts otherwise. -/
theorem C29_volts (d : Dec) (h : d.sigFigs ≤ 6) :
    denotes (convertVolts d) d.value ∧
    ((convertVolts d).2 = "V" ↔ 1 ≤ d.value ∧ d.sigFigs ≤ 3) ∧
    ((convertVolts d).2 = "V" ∨ (convertVolts d).2 = "mV") := by
  unfold convertVolts
  split
  · rename_i hc
    refine ⟨⟨1 / 1000, rfl, ?_⟩, ?_, Or.inr rfl⟩
    · show fmt3 (d.value * 1000) * (1 / 1000) = d.value
      have := fmt3_scaled d 3 h
      norm_num at this
      rw [this]; ring
    · constructor
      · intro h'; simp at h'
      · rintro ⟨h1, h2⟩
        rcases hc with hc | hc
        · exact absurd hc (not_lt.mpr h1)
        · omega
  · rename_i hc
    push Not at hc
    refine ⟨⟨1, rfl, ?_⟩, ⟨fun _ => hc, fun _ => rfl⟩, Or.inl rfl⟩
    show fmt3 d.value * 1 = d.value
    have := fmt3_scaled d 0 hc.2
    simp at this
    rw [this, mul_one]

theorem amps_cases (d : Dec) (P : Rat × String → Prop)
    (hp : d.value < 1 / 10 ^ 9 ∨ d.sigFigs > 12 → P (fmt3 (d.value * 10 ^ 12), "pA"))
    (hn : 1 / 10 ^ 9 ≤ d.value → d.sigFigs ≤ 12 → P (fmt3 (d.value * 10 ^ 9), "nA"))
    (hu : 1 / 10 ^ 6 ≤ d.value → d.sigFigs ≤ 9 → P (fmt3 (d.value * 10 ^ 6), "µA"))
    (hm : 1 / 10 ^ 3 ≤ d.value → d.sigFigs ≤ 6 → P (fmt3 (d.value * 10 ^ 3), "mA"))
    (ha : 1 ≤ d.value → d.sigFigs ≤ 3 → P (fmt3 d.value, "A")) : P (convertAmps d) := by
  unfold convertAmps
  by_cases h1 : d.value < 1 / 10 ^ 9 ∨ d.sigFigs > 12
  · rw [if_pos h1]; exact hp h1
  · rw [if_neg h1]
    push Not at h1
    by_cases h2 : d.value < 1 / 10 ^ 6 ∨ d.sigFigs > 9
    · rw [if_pos h2]; exact hn h1.1 h1.2
    · rw [if_neg h2]
      push Not at h2
      by_cases h3 : d.value < 1 / 10 ^ 3 ∨ d.sigFigs > 6
      · rw [if_pos h3]; exact hu h2.1 h2.2
      · rw [if_neg h3]
        push Not at h3
        by_cases h4 : d.value < 1 ∨ d.sigFigs > 3
        · rw [if_pos h4]; exact hm h3.1 h3.2
        · rw [if_neg h4]
          push Not at h4
          exact ha h4.1 h4.2

/-- C29, currents: a value with at most 15 decimals is written exactly. -/
theorem C29_amps (d : Dec) (h : d.sigFigs ≤ 15) : denotes (convertAmps d) d.value := by
  apply amps_cases d (fun p => denotes p d.value)
  · intro _
    refine ⟨1 / 1000000000000, rfl, ?_⟩
    show fmt3 (d.value * 10 ^ 12) * _ = _
    rw [fmt3_scaled d 12 (by exact h)]; ring
  · intro _ h'
    refine ⟨1 / 1000000000, rfl, ?_⟩
    show fmt3 (d.value * 10 ^ 9) * _ = _
    rw [fmt3_scaled d 9 (by exact h')]; ring
  · intro _ h'
    refine ⟨1 / 1000000, rfl, ?_⟩
    show fmt3 (d.value * 10 ^ 6) * _ = _
    rw [fmt3_scaled d 6 (by exact h')]; ring
  · intro _ h'
    refine ⟨1 / 1000, rfl, ?_⟩
    show fmt3 (d.value * 10 ^ 3) * _ = _
    rw [fmt3_scaled d 3 (by exact h')]; ring
  · intro _ h'
    refine ⟨1, rfl, ?_⟩
    show fmt3 d.value * _ = _
    have := fmt3_scaled d 0 (by exact h')
    rw [pow_zero, mul_one] at this
    rw [this]; ring

/-- C29, currents: the mantissa is at least 1 in every unit but the smallest, and it is
below 1000 whenever the value has few enough decimals for the next larger unit. -/
theorem C29_amps_range (d : Dec) (h : d.sigFigs ≤ 15) :
    ((convertAmps d).2 ≠ "pA" → 1 ≤ (convertAmps d).1) ∧
    (∀ p ∈ [("mA", (3 : Int)), ("µA", 6), ("nA", 9), ("pA", 12)], (convertAmps d).2 = p.1 →
      d.sigFigs ≤ p.2 → (convertAmps d).1 < 1000) := by
  have h12 := fmt3_scaled d 12 (by exact h)
  unfold convertAmps
  by_cases h1 : d.value < 1 / 10 ^ 9 ∨ d.sigFigs > 12
  · rw [if_pos h1]
    refine ⟨fun h => absurd rfl h, ?_⟩
    intro p hp hu hs
    simp only [List.mem_cons, List.not_mem_nil, or_false] at hp
    rcases hp with rfl | rfl | rfl | rfl <;> simp at hu
    · rcases h1 with h1 | h1
      · show fmt3 (d.value * 10 ^ 12) < 1000
        rw [h12]; norm_num at h1 ⊢; linarith
      · simp at hs; omega
  · rw [if_neg h1]
    push Not at h1
    have h9 := fmt3_scaled d 9 (by exact h1.2)
    by_cases h2 : d.value < 1 / 10 ^ 6 ∨ d.sigFigs > 9
    · rw [if_pos h2]
      constructor
      · intro _
        show 1 ≤ fmt3 (d.value * 10 ^ 9)
        rw [h9]; norm_num at h1 ⊢; linarith [h1.1]
      · intro p hp hu hs
        simp only [List.mem_cons, List.not_mem_nil, or_false] at hp
        rcases hp with rfl | rfl | rfl | rfl <;> simp at hu
        · rcases h2 with h2 | h2
          · show fmt3 (d.value * 10 ^ 9) < 1000
            rw [h9]; norm_num at h2 ⊢; linarith
          · simp at hs; omega
    · rw [if_neg h2]
      push Not at h2
      have h6 := fmt3_scaled d 6 (by exact h2.2)
      by_cases h3 : d.value < 1 / 10 ^ 3 ∨ d.sigFigs > 6
      · rw [if_pos h3]
        constructor
        · intro _
          show 1 ≤ fmt3 (d.value * 10 ^ 6)
          rw [h6]; norm_num at h2 ⊢; linarith [h2.1]
        · intro p hp hu hs
          simp only [List.mem_cons, List.not_mem_nil, or_false] at hp
          rcases hp with rfl | rfl | rfl | rfl <;> simp at hu
          · rcases h3 with h3 | h3
            · show fmt3 (d.value * 10 ^ 6) < 1000
              rw [h6]; norm_num at h3 ⊢; linarith
            · simp at hs; omega
      · rw [if_neg h3]
        push Not at h3
        have h33 := fmt3_scaled d 3 (by exact h3.2)
        by_cases h4 : d.value < 1 ∨ d.sigFigs > 3
        · rw [if_pos h4]
          constructor
          · intro _
            show 1 ≤ fmt3 (d.value * 10 ^ 3)
            rw [h33]; norm_num at h3 ⊢; linarith [h3.1]
          · intro p hp hu hs
            simp only [List.mem_cons, List.not_mem_nil, or_false] at hp
            rcases hp with rfl | rfl | rfl | rfl <;> simp at hu
            · rcases h4 with h4 | h4
              · show fmt3 (d.value * 10 ^ 3) < 1000
                rw [h33]; norm_num at h4 ⊢; linarith
              · simp at hs; omega
        · rw [if_neg h4]
          push Not at h4
          constructor
          · intro _
            have := fmt3_scaled d 0 (by exact h4.2)
            rw [pow_zero, mul_one] at this
            show 1 ≤ fmt3 d.value
            rw [this]; exact h4.1
          · intro p hp hu hs
            simp only [List.mem_cons, List.not_mem_nil, or_false] at hp
            rcases hp with rfl | rfl | rfl | rfl <;> simp at hu

/-- C29, powers: a value with at most 9 decimals is written exactly. -/
theorem C29_watts (d : Dec) (h : d.sigFigs ≤ 9) : denotes (convertWatts d) d.value := by
  unfold convertWatts
  by_cases h3 : d.value < 1 / 10 ^ 3 ∨ d.sigFigs > 6
  · rw [if_pos h3]
    refine ⟨1 / 1000000, rfl, ?_⟩
    show fmt3 (d.value * 10 ^ 6) * _ = _
    rw [fmt3_scaled d 6 (by exact h)]; ring
  · rw [if_neg h3]
    push Not at h3
    by_cases h4 : d.value < 1 ∨ d.sigFigs > 3
    · rw [if_pos h4]
      refine ⟨1 / 1000, rfl, ?_⟩
      show fmt3 (d.value * 10 ^ 3) * _ = _
      rw [fmt3_scaled d 3 (by exact h3.2)]; ring
    · rw [if_neg h4]
      push Not at h4
      refine ⟨1, rfl, ?_⟩
      show fmt3 d.value * _ = _
      have := fmt3_scaled d 0 (by exact h4.2)
      rw [pow_zero, mul_one] at this
      rw [this]; ring

/-- a value whose last significant digit is at or above `10^k` is a multiple of `10^k` -/
theorem value_multiple (d : Dec) (k : Nat) (h : d.sigFigs ≤ -(k : Int)) : ∃ n : Int, d.value = n * 10 ^ k := by
  obtain ⟨n, hn⟩ := frac_int d.frac
  unfold Dec.sigFigs at h
  obtain ⟨j, hj⟩ : ∃ j : Nat, (j : Int) = d.exp - k - (explicitFigs d.frac : Int) :=
    ⟨(d.exp - k - (explicitFigs d.frac : Int)).toNat, by omega⟩
  have hpow : pow10 d.exp = (10 : Rat) ^ (explicitFigs d.frac) * 10 ^ j * 10 ^ k := by
    rw [pow10_eq, ← zpow_natCast, ← zpow_natCast, ← zpow_natCast, ← zpow_add₀ (by norm_num),
      ← zpow_add₀ (by norm_num)]
    congr 1
    omega
  refine ⟨(if d.neg then -1 else 1) * (d.int * 10 ^ (explicitFigs d.frac) + n) * 10 ^ j, ?_⟩
  unfold Dec.value
  rw [hpow]
  push_cast
  rw [← hn]
  ring

/-- C29, resistances: a value with at most 9 decimals is written exactly. -/
theorem C29_ohms (d : Dec) (h : d.sigFigs ≤ 9) : denotes (convertOhms d) d.value := by
  unfold convertOhms
  by_cases h3 : d.value < 1 / 10 ^ 3 ∨ d.sigFigs > 6
  · rw [if_pos h3]
    refine ⟨1 / 1000000, rfl, ?_⟩
    show fmt3 (d.value * 10 ^ 6) * _ = _
    rw [fmt3_scaled d 6 (by exact h)]; ring
  · rw [if_neg h3]
    push Not at h3
    by_cases h4 : d.value < 1 ∨ d.sigFigs > 3
    · rw [if_pos h4]
      refine ⟨1 / 1000, rfl, ?_⟩
      show fmt3 (d.value * 10 ^ 3) * _ = _
      rw [fmt3_scaled d 3 (by exact h3.2)]; ring
    · rw [if_neg h4]
      push Not at h4
      by_cases h5 : d.value < 10 ^ 3 ∨ d.sigFigs > 0
      · rw [if_pos h5]
        refine ⟨1, rfl, ?_⟩
        show fmt3 d.value * _ = _
        have := fmt3_scaled d 0 (by exact h4.2)
        rw [pow_zero, mul_one] at this
        rw [this]; ring
      · rw [if_neg h5]
        push Not at h5
        by_cases h6 : d.value < 10 ^ 6 ∨ d.sigFigs > -3
        · rw [if_pos h6]
          refine ⟨1000, rfl, ?_⟩
          show fmt3 (d.value / 10 ^ 3) * _ = _
          obtain ⟨n, hn⟩ := value_multiple d 0 (by exact h5.2)
          rw [fmt3_exact _ n (by rw [hn]; ring)]; ring
        · rw [if_neg h6]
          push Not at h6
          refine ⟨1000000, rfl, ?_⟩
          show fmt3 (d.value / 10 ^ 6) * _ = _
          obtain ⟨n, hn⟩ := value_multiple d 3 (by exact h6.2)
          rw [fmt3_exact _ n (by rw [hn]; ring)]; ring

/-- 1234.5 mA, written as 1.2345 A -/
def exDec : Dec := { neg := false, int := 1, frac := [2, 3, 4, 5, 0], exp := 0 }

example : exDec.sigFigs = 4 ∧ convertAmps exDec = (1234.5, "mA") ∧ convertVolts exDec = (1234.5, "mV") := by
  decide +kernel

/-- C29: even when the decimals do not fit, the written value is off by at most half of the
last written digit (voltages). -/
theorem C29_volts_rounded (d : Dec) : ∃ f, factor (convertVolts d).2 = some f ∧
    |(convertVolts d).1 * f - d.value| ≤ f / 2000 := by
  unfold convertVolts
  split
  · refine ⟨1 / 1000, rfl, ?_⟩
    have := fmt3_near (d.value * 1000)
    rw [abs_le] at *
    constructor <;> linarith [this.1, this.2]
  · refine ⟨1, rfl, ?_⟩
    have := fmt3_near d.value
    rw [abs_le] at *
    constructor <;> linarith [this.1, this.2]

/-- C29 fails for values with more decimals than Biologic can express: 1 V plus 0.1 µV is
written as 1000.000 mV. -/
theorem C29_volts_violated :
    convertVolts { neg := false, int := 1, frac := [0, 0, 0, 0, 0, 0, 1], exp := 0 } = (1000, "mV") := by
  decide +kernel

theorem fmt3_intCast (n : Int) : fmt3 (n : Rat) = n :=
  fmt3_exact _ (n * 1000) (by push_cast; ring)

theorem trunc_intCast (n : Int) : trunc (n : Rat) = n := by
  unfold trunc
  split
  · exact Rat.floor_intCast n
  · have : (-(n : Rat)) = ((-n : Int) : Rat) := by push_cast; rfl
    rw [this, Rat.floor_intCast]; omega

/-- C29, times (partial: whole hours and minutes, seconds with at most 3 decimals): the
written duration is the Maccor duration. -/
theorem C29_time_partial (h m : Int) (s : Rat) (hs : Decimals s 3) :
    denotes (convertTime ⟨h, m, s⟩) (seconds ⟨h, m, s⟩) := by
  obtain ⟨k, hk⟩ := hs
  have hk' : s * 1000 = k := by rw [← hk]; norm_num
  unfold convertTime seconds
  simp only
  split
  · rename_i hc
    refine ⟨3600, rfl, ?_⟩
    simp only [trunc_intCast, fmt3_intCast]
    rw [hc.1, hc.2]; ring
  · split
    · rename_i hc
      refine ⟨60, rfl, ?_⟩
      have : (h : Rat) * 60 + m = ((h * 60 + m : Int) : Rat) := by push_cast; ring
      simp only [this, trunc_intCast, fmt3_intCast]
      push_cast; rw [hc]; ring
    · split
      · rename_i hc
        refine ⟨1, rfl, ?_⟩
        have hsn : s = (s.num : Rat) := by
          have := Rat.num_div_den s
          rw [hc] at this; simpa using this.symm
        have : (h : Rat) * 60 * 60 + m * 60 + s = ((h * 60 * 60 + m * 60 + s.num : Int) : Rat) := by
          push_cast; rw [← hsn]
        simp only [this, trunc_intCast, fmt3_intCast]
        push_cast; rw [← hsn]; ring
      · have : (h : Rat) * 60 * 60 * 1000 + m * 60 * 1000 + s * 1000 =
            ((h * 60 * 60 * 1000 + m * 60 * 1000 + k : Int) : Rat) := by
          push_cast; rw [← hk']
        simp only [this, trunc_intCast]
        split
        · refine ⟨1 / 1000, rfl, ?_⟩
          simp only [fmt3_intCast]
          push_cast; rw [← hk']; ring
        · refine ⟨1, rfl, ?_⟩
          simp only
          rw [fmt3_exact _ (h * 60 * 60 * 1000 + m * 60 * 1000 + k) (by push_cast; ring)]
          push_cast; rw [← hk']; ring

example : convertTime ⟨(1 : Int), (2 : Int), 1 / 2⟩ = (3720500, "ms") ∧ Decimals (1 / 2) 3 :=
  ⟨by decide +kernel, 500, by norm_num⟩

/-- C29 fails for fractional hours: for every number of hours that is not whole, the
written duration is too short. -/
theorem C29_time_hours_violated (h : Rat) (h0 : 0 ≤ h) (hn : ¬ ∃ n : Int, h = n) :
    ∃ v, convertTime ⟨h, 0, 0⟩ = (v, "h") ∧ v < h := by
  refine ⟨fmt3 (trunc h), by simp [convertTime], ?_⟩
  rw [fmt3_intCast]
  unfold trunc
  rw [if_pos h0]
  have h1 : ((Rat.floor h : Int) : Rat) ≤ h := Int.floor_le h
  rcases lt_or_eq_of_le h1 with h2 | h2
  · exact h2
  · exact absurd ⟨_, h2.symm⟩ hn

example : ¬ ∃ n : Int, (3 / 2 : Rat) = n := by
  rintro ⟨n, hn⟩
  have h2 : (3 : Rat) = 2 * n := by linarith
  have : (3 : Int) = 2 * n := by exact_mod_cast h2
  omega

/-! ### converting back -/

/-- C29: voltages survive a conversion to Biologic and back. -/
theorem C29_volts_back (d : Dec) (h : d.sigFigs ≤ 6) :
    backVolts (convertVolts d).1 (convertVolts d).2 = .ok d.value := by
  obtain ⟨⟨f, hf, hv⟩, _, hu⟩ := C29_volts d h
  rcases hu with hu | hu
  · rw [hu] at hf ⊢
    cases hf
    simp [backVolts, ← hv]
  · rw [hu] at hf ⊢
    cases hf
    rw [← hv]
    unfold backVolts
    rw [if_neg (by decide), if_pos rfl]
    congr 1; ring

theorem amps_units (d : Dec) : (convertAmps d).2 ∈ ["A", "mA", "µA", "nA", "pA"] := by
  apply amps_cases d (fun p => p.2 ∈ ["A", "mA", "µA", "nA", "pA"]) <;> intros <;> simp

/-- C29: currents survive a conversion to Biologic and back. -/
theorem C29_amps_back (d : Dec) (h : d.sigFigs ≤ 15) :
    backAmps (convertAmps d).1 (convertAmps d).2 = .ok d.value := by
  obtain ⟨f, hf, hv⟩ := C29_amps d h
  have hu := amps_units d
  simp only [List.mem_cons, List.not_mem_nil, or_false] at hu
  rw [← hv]
  rcases hu with hu | hu | hu | hu | hu <;> rw [hu] at hf ⊢ <;> cases hf <;>
    simp [backAmps, div_eq_mul_inv] <;> norm_num

theorem watts_units (d : Dec) : (convertWatts d).2 ∈ ["W", "mW", "µW"] := by
  unfold convertWatts
  split
  · simp
  · split <;> simp

/-- C29: powers survive a conversion to Biologic and back. -/
theorem C29_watts_back (d : Dec) (h : d.sigFigs ≤ 9) :
    backWatts (convertWatts d).1 (convertWatts d).2 = .ok d.value := by
  obtain ⟨f, hf, hv⟩ := C29_watts d h
  have hu := watts_units d
  simp only [List.mem_cons, List.not_mem_nil, or_false] at hu
  rw [← hv]
  rcases hu with hu | hu | hu <;> rw [hu] at hf ⊢ <;> cases hf <;>
    simp [backWatts, div_eq_mul_inv] <;> norm_num

/-- C29 fails for resistances: the unit names written by one converter are all rejected by
the other. -/
theorem C29_ohms_back_violated (d : Dec) :
    backOhms (convertOhms d).1 (convertOhms d).2 = .error .valueError := by
  unfold convertOhms
  repeat' split
  all_goals simp [backOhms]

theorem round2_exact (x : Rat) (n : Int) (h : x * 100 = n) : round2 x = x := by
  unfold round2
  rw [h, roundEven_int, ← h]
  ring

theorem mod10_intCast (n : Int) : mod10 (n : Rat) = ((n % 10 : Int) : Rat) := by
  unfold mod10
  have : Rat.floor ((n : Rat) / 10) = n / 10 := by
    exact Rat.floor_intCast_div_natCast n 10
  rw [this]
  have := Int.mul_ediv_add_emod n 10
  have h : ((n % 10 : Int) : Rat) = n - 10 * (n / 10 : Int) := by
    exact_mod_cast (by omega : n % 10 = n - 10 * (n / 10))
  rw [h]

/-- C29, times converted back (partial: whole hours and minutes, seconds with at most 2
decimals): the duration is unchanged. -/
theorem C29_time_back_partial (h m : Int) (s : Rat) (hs : Decimals s 2) :
    ∃ t, backTime (convertTime ⟨h, m, s⟩).1 (convertTime ⟨h, m, s⟩).2 = .ok t ∧
      seconds t = seconds ⟨h, m, s⟩ := by
  have hs3 : Decimals s 3 := by
    obtain ⟨k, hk⟩ := hs
    exact ⟨k * 10, by push_cast; rw [← hk]; ring⟩
  obtain ⟨f, hf, hv⟩ := C29_time_partial h m s hs3
  have hunit : (convertTime ⟨h, m, s⟩).2 ∈ ["h", "mn", "s", "ms"] := by
    unfold convertTime
    simp only
    repeat' split
    all_goals simp
  simp only [List.mem_cons, List.not_mem_nil, or_false] at hunit
  rcases hunit with hu | hu | hu | hu
  · rw [hu] at hf ⊢; cases hf
    exact ⟨_, rfl, by rw [← hv]; simp [seconds]⟩
  · rw [hu] at hf ⊢; cases hf
    exact ⟨_, rfl, by rw [← hv]; simp [seconds]⟩
  · rw [hu] at hf ⊢; cases hf
    exact ⟨_, rfl, by rw [← hv]; simp [seconds]⟩
  · rw [hu] at hf ⊢; cases hf
    obtain ⟨k, hk⟩ := hs
    have hval : (convertTime ⟨h, m, s⟩).1 = ((h * 3600000 + m * 60000 + k * 10 : Int) : Rat) := by
      have h1 : (convertTime ⟨h, m, s⟩).1 = seconds ⟨h, m, s⟩ * 1000 := by rw [← hv]; ring
      rw [h1]
      push_cast
      rw [← hk]
      simp only [seconds]
      ring
    rw [hval]
    unfold backTime
    rw [if_neg (by decide), if_neg (by decide), if_neg (by decide), if_pos rfl, mod10_intCast]
    have hm : (h * 3600000 + m * 60000 + k * 10) % 10 = 0 := by omega
    rw [hm]
    rw [if_neg (by norm_num)]
    refine ⟨_, rfl, ?_⟩
    rw [round2_exact _ (h * 360000 + m * 6000 + k) (by push_cast; ring)]
    rw [← hv, hval]
    simp only [seconds]
    ring

end Beep.Props.Units
