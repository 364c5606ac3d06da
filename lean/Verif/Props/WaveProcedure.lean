import Verif.Proof.WaveProcedure
import Verif.Proof.Stats
/-
C121: a procedure generated with a waveform plays that waveform file and obeys the other parameters.
C122: generating a procedure leaves the parameters it was given unchanged.
-/
namespace Beep.Props.WaveProcedure
open Beep Text MaccorProcedure WaveProcedure Spec.MaccorProcedure Spec.Inserted Spec.WaveProcedure Spec.Accepted
  Proof.MaccorProcedure Proof.Inserted Proof.WaveProcedure Props.MaccorProcedure Props.Inserted Props.Accepted

/-- the intermediate procedures of a successful driving procedure -/
theorem driving_chain {index : Int} {r : RegParam} {path : Str} {p p' : List Step} :
    driving index r path p = .ok p' ↔
      r.dischargeCutoffVoltage < r.chargeCutoffVoltage ∧ r.chargeCC1 ≤ r.chargeCC2 ∧
      ∃ c₁ c₂ p₀ p₁ p₂ p₃ p₄, insertChargeV3 28 r = .ok c₁ ∧ insertChargeV3 60 r = .ok c₂ ∧
        run (insertInitialRest 0 index ++ insertResistance 1 r) p = .ok p₀ ∧ run c₁ p₀ = .ok p₁ ∧
        insertWaveform 32 path p₁ = .ok p₂ ∧ run c₂ p₂ = .ok p₃ ∧ insertWaveform 64 path p₃ = .ok p₄ ∧
        run (insertStorage (.nth 0) 93 r) p₄ = .ok p' ∧ sameUpper 28 p' = .ok () ∧ sameUpper 60 p' = .ok () := by
  simp only [driving, bind, Except.bind]
  constructor
  · intro h
    split at h
    · rename_i hv
      split at h
      · rename_i hc
        refine ⟨hv, hc, ?_⟩
        split at h
        · cases h
        rename_i c₁ h₁
        split at h
        · cases h
        rename_i c₂ h₂
        split at h
        · cases h
        rename_i p₁ hp₁
        split at h
        · cases h
        rename_i p₂ hp₂
        split at h
        · cases h
        rename_i p₃ hp₃
        split at h
        · cases h
        rename_i p₄ hp₄
        split at h
        · cases h
        rename_i p₅ hp₅
        split at h
        · cases h
        rename_i hs1
        split at h
        · cases h
        rename_i hs2
        cases h
        obtain ⟨p₀, a, b⟩ := Proof.Inserted.run_append hp₁
        exact ⟨c₁, c₂, p₀, p₁, p₂, p₃, p₄, h₁, h₂, a, b, hp₂, hp₃, hp₄, hp₅, hs1, hs2⟩
      · cases h
    · cases h
  · rintro ⟨hv, hc, c₁, c₂, p₀, p₁, p₂, p₃, p₄, h₁, h₂, a, b, hp₂, hp₃, hp₄, hp₅, hs1, hs2⟩
    rw [if_pos hv, if_pos hc]
    simp only [h₁, h₂, (run_append_iff _ _ _ _).mpr ⟨p₀, a, b⟩, hp₂, hp₃, hp₄, hp₅, hs1, hs2]

/-- C121, driving: a procedure generated for the waveform file `name` in a directory without dots plays
that waveform instead of both discharges.  The charges, the storage step, the resistance check and the
initial rest are as requested, and every other step is the template's.  (Partial: the loop counts and the
rest after the waveform are not set, see `C121_loops_violated`; names with dots, see
`C121_name_violated`.) -/
theorem C121_driving_partial (index : Int) (r : RegParam) (path dir name : Str) (p p' : List Step)
    (hw : WaveFile path dir name) (hd : '.' ∉ dir ++ name) (h : driving index r path p = .ok p') :
    r.dischargeCutoffVoltage < r.chargeCutoffVoltage ∧ r.chargeCC1 ≤ r.chargeCC2 ∧ name.length < 25 ∧
    StartsAfter p' index ∧ Resistance r p' 1 ∧ ChargeV3 r p' 28 ∧ Plays p p' 32 name ∧
    ChargeV3 r p' 60 ∧ Plays p p' 64 name ∧ Storage r p' 93 ∧
    ∀ j, j ∉ [0, 1, 28, 29, 30, 31, 32, 60, 61, 62, 63, 64, 93, 94] → p'[j]? = p[j]? := by
  obtain ⟨hv, hc, c₁, c₂, p₀, p₁, p₂, p₃, p₄, h₁, h₂, a, b, w1, d, w2, e, -, -⟩ := driving_chain.mp h
  have f0 := start_frame a
  have f1 := V3_frame h₁ b
  have f2 := wave_other w1
  have f3 := V3_frame h₂ d
  have f4 := wave_other w2
  have f5 := storage_frame e
  obtain ⟨g1, g2⟩ := start_spec a
  have k1 := C69_chargeV3 28 r _ _ _ h₁ b
  have k2 := C69_chargeV3 60 r _ _ _ h₂ d
  have hn := localName_wave hw hd
  obtain ⟨s₁, hs₁, -, -, hlen⟩ := (wave_iff _ _ _ _).mp w1
  obtain ⟨s₂, hs₂, -, -, -⟩ := (wave_iff _ _ _ _).mp w2
  rw [hn] at hlen
  have z : ∀ j, j < 2 → p'[j]? = p₀[j]? := fun j hj => by
    rw [f5 j (by omega), f4 j (by omega), f3 j (by omega), f2 j (by omega), f1 j (by omega)]
  refine ⟨hv, hc, hlen, ?_, resistance_of (z 1 (by omega)) g2, chargeV3_of (fun j x y => ?_) k1, ?_,
    chargeV3_of (fun j x y => ?_) k2, ?_, (C69_regular 93 r p₄ p').2.2 _ (.inr rfl) e, ?_⟩
  · simp only [StartsAfter, EndTime] at g1 ⊢
    rw [z 0 (by omega)]; exact g1
  · rw [f5 j (by omega), f4 j (by omega), f3 j (by omega), f2 j (by omega)]
  · rw [← hn]
    refine plays_of w1 (t := s₁) ?_ hs₁ rfl (fun _ => rfl) ?_
    · rw [← hs₁, f1 32 (by omega), f0 32 (by omega)]
    · rw [f5 32 (by omega), f4 32 (by omega), f3 32 (by omega)]
  · rw [f5 j (by omega), f4 j (by omega)]
  · rw [← hn]
    refine plays_of w2 (t := s₂) ?_ hs₂ rfl (fun _ => rfl) (f5 64 (by omega))
    rw [← hs₂, f3 64 (by omega), f2 64 (by omega), f1 64 (by omega), f0 64 (by omega)]
  · intro j hj
    simp only [List.mem_cons, List.not_mem_nil, or_false, not_or] at hj
    rw [f5 j (by omega), f4 j (by omega), f3 j (by omega), f2 j (by omega), f1 j (by omega), f0 j (by omega)]

/-- C121, driving: exactly when a procedure is generated.  The closing comparison of the upper voltages
never fails. -/
theorem C121_driving_accepts (index : Int) (r : RegParam) (path dir name : Str) (p : List Step)
    (hw : WaveFile path dir name) (hd : '.' ∉ dir ++ name) :
    (∃ p', driving index r path p = .ok p') ↔
      r.dischargeCutoffVoltage < r.chargeCutoffVoltage ∧ r.chargeCC1 ≤ r.chargeCC2 ∧ r.chargeCC1 ≠ 0 ∧
      name.length < 25 ∧ Resting p 0 ∧ IsStep p 1 "Charge" "Current" ∧ FitsChargeV3 p 28 ∧ 32 < p.length ∧
      FitsChargeV3 p 60 ∧ 64 < p.length ∧ FitsStorage (.nth 0) p 93 := by
  have hn := localName_wave hw hd
  constructor
  · rintro ⟨p', h⟩
    obtain ⟨hv, hc, c₁, c₂, p₀, p₁, p₂, p₃, p₄, h₁, h₂, a, b, w1, d, w2, e, -, -⟩ := driving_chain.mp h
    have f0 := start_frame a
    have f1 := V3_frame h₁ b
    have f2 := wave_other w1
    have f3 := V3_frame h₂ d
    have f4 := wave_other w2
    obtain ⟨x1, x2⟩ := (start_iff index r p).mp ⟨_, a⟩
    obtain ⟨s₁, hs₁, -, -, hlen⟩ := (wave_iff _ _ _ _).mp w1
    obtain ⟨s₂, hs₂, -, -, -⟩ := (wave_iff _ _ _ _).mp w2
    rw [f1 32 (by omega), f0 32 (by omega)] at hs₁
    rw [f3 64 (by omega), f2 64 (by omega), f1 64 (by omega), f0 64 (by omega)] at hs₂
    refine ⟨hv, hc, (chargeV3_ok 28 r).mp ⟨_, h₁⟩, hn ▸ hlen, x1, x2, ?_, (List.getElem?_eq_some_iff.mp hs₁).1, ?_,
      (List.getElem?_eq_some_iff.mp hs₂).1, ?_⟩
    · exact (fitsCharge_congr (fun j x y => f0 j (by omega))).mp ((V3_iff h₁ _).mp ⟨_, b⟩)
    · refine (fitsCharge_congr (fun j x y => ?_)).mp ((V3_iff h₂ _).mp ⟨_, d⟩)
      rw [f2 j (by omega), f1 j (by omega), f0 j (by omega)]
    · refine (fitsStorage_congr (fun j x y => ?_)).mp ((storage_iff r _).mp ⟨_, e⟩)
      rw [f4 j (by omega), f3 j (by omega), f2 j (by omega), f1 j (by omega), f0 j (by omega)]
  · rintro ⟨hv, hc, h0, hlen, x1, x2, x3, l1, x4, l2, x5⟩
    have hm := lastPart_wave hw
    obtain ⟨c₁, h₁⟩ := (chargeV3_ok 28 r).mpr h0
    obtain ⟨c₂, h₂⟩ := (chargeV3_ok 60 r).mpr h0
    obtain ⟨p₀, a⟩ := (start_iff index r p).mpr ⟨x1, x2⟩
    have f0 := start_frame a
    obtain ⟨p₁, b⟩ := (V3_iff h₁ p₀).mpr ((fitsCharge_congr (fun j x y => f0 j (by omega))).mpr x3)
    have f1 := V3_frame h₁ b
    have w1 := (wave_iff 32 path p₁ _).mpr ⟨p[32], by
      rw [f1 32 (by omega), f0 32 (by omega)]; exact List.getElem?_eq_getElem l1, rfl, hm, by rw [hn]; exact hlen⟩
    have f2 := wave_other w1
    obtain ⟨p₃, d⟩ := (V3_iff h₂ _).mpr ((fitsCharge_congr (fun j x y => by
      rw [f2 j (by omega), f1 j (by omega), f0 j (by omega)])).mpr x4)
    have f3 := V3_frame h₂ d
    have w2 := (wave_iff 64 path p₃ _).mpr ⟨p[64], by
      rw [f3 64 (by omega), f2 64 (by omega), f1 64 (by omega), f0 64 (by omega)]; exact List.getElem?_eq_getElem l2,
      rfl, hm, by rw [hn]; exact hlen⟩
    have f4 := wave_other w2
    obtain ⟨p₅, e⟩ := (storage_iff r _).mpr ((fitsStorage_congr (fun j x y => by
      rw [f4 j (by omega), f3 j (by omega), f2 j (by omega), f1 j (by omega), f0 j (by omega)])).mpr x5)
    have f5 := storage_frame e
    obtain ⟨u1, u2⟩ := V3_upper h₁ b
    obtain ⟨v1, v2⟩ := V3_upper h₂ d
    have fa : ∀ j, j = 28 ∨ j = 29 → p₅[j]? = p₁[j]? := fun j hj => by
      rw [f5 j (by omega), f4 j (by omega), f3 j (by omega), f2 j (by omega)]
    have fb : ∀ j, j = 60 ∨ j = 61 → p₅[j]? = p₃[j]? := fun j hj => by
      rw [f5 j (by omega), f4 j (by omega)]
    refine ⟨p₅, driving_chain.mpr ⟨hv, hc, c₁, c₂, p₀, p₁, _, p₃, _, h₁, h₂, a, b, w1, d, w2, e, ?_, ?_⟩⟩
    · exact sameUpper_ok (by rw [read_congr (fa 28 (.inl rfl))]; exact u1) (by rw [read_congr (fa 29 (.inr rfl))]; exact u2)
    · exact sameUpper_ok (by rw [read_congr (fb 60 (.inl rfl))]; exact v1) (by rw [read_congr (fb 61 (.inr rfl))]; exact v2)

/-- C121 fails for the loops and the rest after a driving waveform: whatever cycle numbers and rest
time are requested, the same procedure is generated, with the loop counts and rests of the template -/
theorem C121_loops_violated (index : Int) (r : RegParam) (path dir name : Str) (p p' : List Step)
    (hw : WaveFile path dir name) (hd : '.' ∉ dir ++ name) (h : driving index r path p = .ok p') :
    (∀ start interval rest : Rat,
      driving index { r with diagnosticStartCycle := start, diagnosticInterval := interval, dischargeRestTime := rest } path p =
        .ok p') ∧
    p'[33]? = p[33]? ∧ p'[35]? = p[35]? ∧ p'[65]? = p[65]? ∧ p'[67]? = p[67]? := by
  obtain ⟨-, -, -, -, -, -, -, -, -, -, f⟩ := C121_driving_partial index r path dir name p p' hw hd h
  refine ⟨fun start interval rest => ?_, f 33 (by decide), f 35 (by decide), f 65 (by decide), f 67 (by decide)⟩
  rw [← h]
  rfl

/-- C121 fails for the name when there is a dot before the extension: the step names what stands before
the first dot of the path, without its directories -/
theorem C121_name_violated (index : Int) (r : RegParam) (path dir name a x b : Str) (p p' : List Step)
    (_hw : WaveFile path dir name) (hp : path = a ++ (x ++ '.' :: b)) (ha : a = [] ∨ a.getLast? = some '/') (hx : '/' ∉ x)
    (hd : '.' ∉ a ++ x) (hne : x ≠ name) (h : driving index r path p = .ok p') :
    Plays p p' 32 x ∧ ¬ Plays p p' 32 name := by
  obtain ⟨-, -, c₁, c₂, p₀, p₁, p₂, p₃, p₄, h₁, h₂, s, t, w1, d, w2, e, -, -⟩ := driving_chain.mp h
  have hn : localName path = x := by rw [hp]; exact localName_cut ha hx hd
  obtain ⟨s₁, hs₁, -, -, -⟩ := (wave_iff _ _ _ _).mp w1
  have hx' : Plays p p' 32 x := by
    rw [← hn]
    refine plays_of w1 (t := s₁) ?_ hs₁ rfl (fun _ => rfl) ?_
    · rw [← hs₁, V3_frame h₁ t 32 (by omega), start_frame s 32 (by omega)]
    · rw [storage_frame e 32 (by omega), wave_other w2 32 (by omega), V3_frame h₂ d 32 (by omega)]
  exact ⟨hx', fun hm => hne (plays_unique hx' hm)⟩

/-! ### charging -/

theorem waveLimit_lt (file : List Waveform.Line) (limit v : Rat) (h : waveLimit file = .ok limit) :
    limit < v ↔ ∀ l ∈ file, l.limitValue < v := by
  simp only [waveLimit] at h
  split at h
  · rename_i x hx
    cases h
    obtain ⟨h1, h2⟩ := Pandas.maxN_some _ _ hx
    constructor
    · intro hv l hl
      exact lt_of_le_of_lt (h2 l.limitValue (List.mem_map.mpr ⟨l, hl, rfl⟩)) hv
    · intro hv
      obtain ⟨l, hl, he⟩ := List.mem_map.mp h1
      exact (Option.some.inj he) ▸ hv l hl
  · cases h

theorem waveLimit_iff (file : List Waveform.Line) : (∃ x, waveLimit file = .ok x) ↔ file ≠ [] := by
  simp only [waveLimit]
  cases file with
  | nil => simp [Pandas.maxN]
  | cons l ls =>
    cases hm : Pandas.maxN ((l :: ls).map (fun l => some l.limitValue)) with
    | some x => simp
    | none =>
      exact absurd ⟨l.limitValue, by simp⟩ ((Pandas.maxN_none _).mp hm)

/-- the intermediate procedures of a successful charging procedure -/
theorem charging_chain {file : List Waveform.Line} {index : Int} {q : Rapid} {path : Str} {p p' : List Step} :
    (charging file index q path p).1 = .ok p' ↔
      q.reg.dischargeCutoffVoltage < q.reg.chargeCutoffVoltage ∧
      ∃ c₁ c₂ p₀ p₁ p₂ p₃ p₄ p₅ p₆ limit, insertChargeV3 28 (prepare q).reg = .ok c₁ ∧
        insertChargeV3 60 (prepare q).reg = .ok c₂ ∧
        run (insertInitialRest 0 index ++ insertResistance 1 q.reg) p = .ok p₀ ∧ run c₁ p₀ = .ok p₁ ∧
        insertWaveform 28 path p₁ = .ok p₂ ∧ run (insertDischarge 32 (prepare q).reg) p₂ = .ok p₃ ∧ run c₂ p₃ = .ok p₄ ∧
        insertWaveform 60 path p₄ = .ok p₅ ∧ run (insertDischarge 64 (prepare q).reg) p₅ = .ok p₆ ∧
        run (insertStorage (.nth 0) 93 (prepare q).reg) p₆ = .ok p' ∧ waveLimit file = .ok limit ∧
        belowUpper limit 28 p' = .ok () ∧ belowUpper limit 60 p' = .ok () := by
  simp only [charging]
  constructor
  · intro h
    split at h
    · rename_i hv
      refine ⟨hv, ?_⟩
      split at h
      · cases h
      rename_i p₀ hp₀
      simp only [chargingBody, bind, Except.bind] at h
      split at h
      · cases h
      rename_i c₁ h₁
      split at h
      · cases h
      rename_i c₂ h₂
      split at h
      · cases h
      rename_i p₁ hp₁
      split at h
      · cases h
      rename_i p₂ hp₂
      split at h
      · cases h
      rename_i p₄ hp₄
      split at h
      · cases h
      rename_i p₅ hp₅
      split at h
      · cases h
      rename_i p₇ hp₇
      split at h
      · cases h
      rename_i limit hl
      split at h
      · cases h
      rename_i hs1
      split at h
      · cases h
      rename_i hs2
      cases h
      obtain ⟨p₃, a, b⟩ := Proof.Inserted.run_append hp₄
      obtain ⟨p₆, c, d⟩ := Proof.Inserted.run_append hp₇
      exact ⟨c₁, c₂, p₀, p₁, p₂, p₃, p₄, p₅, p₆, limit, h₁, h₂, hp₀, hp₁, hp₂, a, b, hp₅, c, d, hl, hs1, hs2⟩
    · cases h
  · rintro ⟨hv, c₁, c₂, p₀, p₁, p₂, p₃, p₄, p₅, p₆, limit, h₁, h₂, hp₀, hp₁, hp₂, a, b, hp₅, c, d, hl, hs1, hs2⟩
    rw [if_pos hv]
    simp only [hp₀, chargingBody, bind, Except.bind, h₁, h₂, hp₁, hp₂, (run_append_iff _ _ _ _).mpr ⟨p₃, a, b⟩, hp₅,
      (run_append_iff _ _ _ _).mpr ⟨p₆, c, d⟩, hl, hs1, hs2]

theorem secondStage_of {r : RegParam} {p p' : List Step} {i : Nat} (h : ∀ j, i ≤ j → j ≤ i + 2 → p'[j]? = p[j]?)
    (hc : SecondStage r p i) : SecondStage r p' i := by
  simp only [SecondStage, Commands, Timed, EndsOn, Rests] at hc ⊢
  rw [h i (by omega) (by omega), h (i + 1) (by omega) (by omega), h (i + 2) (by omega) (by omega)]
  exact hc

/-- the step a charge leaves for the waveform has the settings and limits of the template -/
theorem V3_kept {i : Nat} {r : RegParam} {c : List Instr} {p p' : List Step} {u : Step} (hc : insertChargeV3 i r = .ok c)
    (h : run c p = .ok p') (hu : p'[i]? = some u) :
    ∃ t, p[i]? = some t ∧ u.other = t.other ∧ ∀ key, limitOf u key = limitOf t key := by
  have hs := ((C66_regular_cycle i r p p').2.1 _ hc h).1
  rcases same_step hs i with ⟨h1, h2⟩ | ⟨s, s', h1, h2, hS⟩
  · rw [hu] at h2; cases h2
  · rw [hu] at h2; cases h2
    refine ⟨s, h1, hS.2.2.2.1, fun key => ?_⟩
    have := V3_limits hc h key
    simpa only [Proof.Inserted.read, hu, h1, Option.bind_some, limitOf] using this

/-- C121, charging: a procedure generated for the waveform file `name` in a directory without dots plays
that waveform instead of the first charging stage; the second stage, the discharges with the loop counts,
the storage step, the resistance check and the initial rest are as requested, every other step is the
template's, and every line of the waveform file is limited to less than the cutoff voltage as it is
written in the procedure.  (Partial: names with dots, see `C121_name_violated`.) -/
theorem C121_charging_partial (file : List Waveform.Line) (index : Int) (q : Rapid) (path dir name : Str)
    (p p' : List Step) (hw : WaveFile path dir name) (hd : '.' ∉ dir ++ name)
    (h : (charging file index q path p).1 = .ok p') :
    q.reg.dischargeCutoffVoltage < q.reg.chargeCutoffVoltage ∧ name.length < 25 ∧
    StartsAfter p' index ∧ Resistance q.reg p' 1 ∧
    Plays p p' 28 name ∧ SecondStage { q.reg with chargeCC2 := q.currentParam4 } p' 29 ∧ Discharge q.reg p' 32 ∧
    Plays p p' 60 name ∧ SecondStage { q.reg with chargeCC2 := q.currentParam4 } p' 61 ∧ Discharge q.reg p' 64 ∧
    Storage q.reg p' 93 ∧
    (file ≠ [] ∧ ∃ v, Near 1000 (.num v) q.reg.chargeCutoffVoltage ∧ ∀ l ∈ file, l.limitValue < v) ∧
    ∀ j, j ∉ [0, 1, 28, 29, 30, 31, 32, 33, 35, 60, 61, 62, 63, 64, 65, 67, 93, 94] → p'[j]? = p[j]? := by
  obtain ⟨hv, c₁, c₂, p₀, p₁, p₂, p₃, p₄, p₅, p₆, limit, h₁, h₂, a, b, w1, c, d, w2, e, g, hl, s1, s2⟩ := charging_chain.mp h
  have f0 := start_frame a
  have f1 := V3_frame h₁ b
  have f2 := wave_other w1
  have f3 := ((C66_regular_cycle 32 (prepare q).reg p₂ p₃).2.2.1 c).2
  have f4 := V3_frame h₂ d
  have f5 := wave_other w2
  have f6 := ((C66_regular_cycle 64 (prepare q).reg p₅ p₆).2.2.1 e).2
  have f7 := storage_frame g
  obtain ⟨g1, g2⟩ := start_spec a
  have hn := localName_wave hw hd
  have k1 := (C69_chargeV3 28 _ _ _ _ h₁ b).1.2.2
  have k2 := (C69_chargeV3 60 _ _ _ _ h₂ d).1.2.2
  have m1 := (C69_regular 32 _ p₂ p₃).2.1 c
  have m2 := (C69_regular 64 _ p₅ p₆).2.1 e
  have m3 := (C69_regular 93 _ p₆ p').2.2 _ (.inr rfl) g
  obtain ⟨s₁, hs₁, -, -, hlen⟩ := (wave_iff _ _ _ _).mp w1
  obtain ⟨s₂, hs₂, -, -, -⟩ := (wave_iff _ _ _ _).mp w2
  rw [hn] at hlen
  obtain ⟨t₁, ht₁, o1, l1⟩ := V3_kept h₁ b hs₁
  obtain ⟨t₂, ht₂, o2, l2⟩ := V3_kept h₂ d hs₂
  have z : ∀ j, j < 2 → p'[j]? = p₀[j]? := fun j hj => by
    rw [f7 j (by omega), f6 j (by omega), f5 j (by omega), f4 j (by omega), f3 j (by omega), f2 j (by omega), f1 j (by omega)]
  have y : ∀ j, 32 ≤ j → j ≤ 35 → p'[j]? = p₃[j]? := fun j hj hj' => by
    rw [f7 j (by omega), f6 j (by omega), f5 j (by omega), f4 j (by omega)]
  have x1 : ∀ j, 29 ≤ j → j ≤ 31 → p'[j]? = p₁[j]? := fun j hj hj' => by
    rw [f7 j (by omega), f6 j (by omega), f5 j (by omega), f4 j (by omega), f3 j (by omega), f2 j (by omega)]
  have x2 : ∀ j, 61 ≤ j → j ≤ 63 → p'[j]? = p₄[j]? := fun j hj hj' => by
    rw [f7 j (by omega), f6 j (by omega), f5 j (by omega)]
  refine ⟨hv, hlen, ?_, resistance_of (z 1 (by omega)) g2, ?_,
    secondStage_of (fun j u v => x1 j (by omega) (by omega)) (p := p₁) k1, discharge_of (fun j u v => y j (by omega) (by omega)) m1, ?_,
    secondStage_of (fun j u v => x2 j (by omega) (by omega)) (p := p₄) k2, discharge_of (fun j u v => f7 j (by omega)) m2, m3, ?_, ?_⟩
  · simp only [StartsAfter, EndTime] at g1 ⊢
    rw [z 0 (by omega)]; exact g1
  · rw [← hn]
    refine plays_of w1 (t := t₁) ?_ hs₁ o1 l1 ?_
    · rw [← ht₁, f0 28 (by omega)]
    · rw [f7 28 (by omega), f6 28 (by omega), f5 28 (by omega), f4 28 (by omega), f3 28 (by omega)]
  · rw [← hn]
    refine plays_of w2 (t := t₂) ?_ hs₂ o2 l2 ?_
    · rw [← ht₂, f3 60 (by omega), f2 60 (by omega), f1 60 (by omega), f0 60 (by omega)]
    · rw [f7 60 (by omega), f6 60 (by omega)]
  · refine ⟨(waveLimit_iff file).mp ⟨_, hl⟩, roundTo 1000 q.reg.chargeCutoffVoltage, near_round 1000 (by decide) _, ?_⟩
    rw [← waveLimit_lt file limit _ hl]
    refine (belowUpper_iff (p := p') (i := 28) ?_).mp s1
    rw [read_congr (x1 29 (by omega) (by omega))]
    exact (V3_upper h₁ b).2
  · intro j hj
    simp only [List.mem_cons, List.not_mem_nil, or_false, not_or] at hj
    rw [f7 j (by omega), f6 j (by omega), f5 j (by omega), f4 j (by omega), f3 j (by omega), f2 j (by omega), f1 j (by omega),
      f0 j (by omega)]

/-- C121, charging: exactly when a procedure is generated -/
theorem C121_charging_accepts (file : List Waveform.Line) (index : Int) (q : Rapid) (path dir name : Str) (p : List Step)
    (hw : WaveFile path dir name) (hd : '.' ∉ dir ++ name) :
    (∃ p', (charging file index q path p).1 = .ok p') ↔
      q.reg.dischargeCutoffVoltage < q.reg.chargeCutoffVoltage ∧ name.length < 25 ∧
      Resting p 0 ∧ IsStep p 1 "Charge" "Current" ∧ FitsChargeV3 p 28 ∧ FitsDischarge p 32 ∧
      FitsChargeV3 p 60 ∧ FitsDischarge p 64 ∧ FitsStorage (.nth 0) p 93 ∧
      file ≠ [] ∧ ∀ l ∈ file, l.limitValue < roundTo 1000 q.reg.chargeCutoffVoltage := by
  have hn := localName_wave hw hd
  constructor
  · rintro ⟨p', h⟩
    obtain ⟨hv, c₁, c₂, p₀, p₁, p₂, p₃, p₄, p₅, p₆, limit, h₁, h₂, a, b, w1, c, d, w2, e, g, hl, s1, s2⟩ := charging_chain.mp h
    have f0 := start_frame a
    have f1 := V3_frame h₁ b
    have f2 := wave_other w1
    have f3 := discharge_frame c
    have f4 := V3_frame h₂ d
    have f5 := wave_other w2
    have f6 := discharge_frame e
    have f7 := storage_frame g
    obtain ⟨x1, x2⟩ := (start_iff index q.reg p).mp ⟨_, a⟩
    obtain ⟨s₁, hs₁, -, -, hlen⟩ := (wave_iff _ _ _ _).mp w1
    refine ⟨hv, hn ▸ hlen, x1, x2, ?_, ?_, ?_, ?_, ?_, (waveLimit_iff file).mp ⟨_, hl⟩, ?_⟩
    · exact (fitsCharge_congr (fun j x y => f0 j (by omega))).mp ((V3_iff h₁ _).mp ⟨_, b⟩)
    · refine (fitsDischarge_congr (fun j x y => ?_)).mp ((discharge_iff 32 _ _).mp ⟨_, c⟩)
      rw [f2 j (by omega), f1 j (by omega), f0 j (by omega)]
    · refine (fitsCharge_congr (fun j x y => ?_)).mp ((V3_iff h₂ _).mp ⟨_, d⟩)
      rw [f3 j (by omega), f2 j (by omega), f1 j (by omega), f0 j (by omega)]
    · refine (fitsDischarge_congr (fun j x y => ?_)).mp ((discharge_iff 64 _ _).mp ⟨_, e⟩)
      rw [f5 j (by omega), f4 j (by omega), f3 j (by omega), f2 j (by omega), f1 j (by omega), f0 j (by omega)]
    · refine (fitsStorage_congr (fun j x y => ?_)).mp ((storage_iff _ _).mp ⟨_, g⟩)
      rw [f6 j (by omega), f5 j (by omega), f4 j (by omega), f3 j (by omega), f2 j (by omega), f1 j (by omega), f0 j (by omega)]
    · rw [← waveLimit_lt file limit _ hl]
      refine (belowUpper_iff (p := p') (i := 28) ?_).mp s1
      have f29 : p'[29]? = p₁[29]? := by
        rw [f7 29 (by omega), f6 29 (by omega), f5 29 (by omega), f4 29 (by omega), f3 29 (by omega), f2 29 (by omega)]
      rw [read_congr f29]
      exact (V3_upper h₁ b).2
  · rintro ⟨hv, hlen, x1, x2, x3, x4, x5, x6, x7, hf, hb⟩
    have hm := lastPart_wave hw
    have h0 : (prepare q).reg.chargeCC1 ≠ 0 := by simp [prepare]
    obtain ⟨c₁, h₁⟩ := (chargeV3_ok 28 (prepare q).reg).mpr h0
    obtain ⟨c₂, h₂⟩ := (chargeV3_ok 60 (prepare q).reg).mpr h0
    obtain ⟨p₀, a⟩ := (start_iff index q.reg p).mpr ⟨x1, x2⟩
    have f0 := start_frame a
    obtain ⟨p₁, b⟩ := (V3_iff h₁ p₀).mpr ((fitsCharge_congr (fun j x y => f0 j (by omega))).mpr x3)
    have f1 := V3_frame h₁ b
    obtain ⟨s₁, -, hs₁, -⟩ := (C69_chargeV3 28 _ _ _ _ h₁ b).1.2.1
    have w1 := (wave_iff 28 path p₁ _).mpr ⟨_, hs₁, rfl, hm, by rw [hn]; exact hlen⟩
    have f2 := wave_other w1
    obtain ⟨p₃, c⟩ := (discharge_iff 32 (prepare q).reg _).mpr ((fitsDischarge_congr (fun j x y => by
      rw [f2 j (by omega), f1 j (by omega), f0 j (by omega)])).mpr x4)
    have f3 := discharge_frame c
    obtain ⟨p₄, d⟩ := (V3_iff h₂ p₃).mpr ((fitsCharge_congr (fun j x y => by
      rw [f3 j (by omega), f2 j (by omega), f1 j (by omega), f0 j (by omega)])).mpr x5)
    have f4 := V3_frame h₂ d
    obtain ⟨s₂, -, hs₂, -⟩ := (C69_chargeV3 60 _ _ _ _ h₂ d).1.2.1
    have w2 := (wave_iff 60 path p₄ _).mpr ⟨_, hs₂, rfl, hm, by rw [hn]; exact hlen⟩
    have f5 := wave_other w2
    obtain ⟨p₆, e⟩ := (discharge_iff 64 (prepare q).reg _).mpr ((fitsDischarge_congr (fun j x y => by
      rw [f5 j (by omega), f4 j (by omega), f3 j (by omega), f2 j (by omega), f1 j (by omega), f0 j (by omega)])).mpr x6)
    have f6 := discharge_frame e
    obtain ⟨p₇, g⟩ := (storage_iff (prepare q).reg _).mpr ((fitsStorage_congr (fun j x y => by
      rw [f6 j (by omega), f5 j (by omega), f4 j (by omega), f3 j (by omega), f2 j (by omega), f1 j (by omega),
        f0 j (by omega)])).mpr x7)
    have f7 := storage_frame g
    obtain ⟨limit, hl⟩ := (waveLimit_iff file).mpr hf
    have hlt := (waveLimit_lt file limit _ hl).mpr hb
    have fa : p₇[29]? = p₁[29]? := by
      rw [f7 29 (by omega), f6 29 (by omega), f5 29 (by omega), f4 29 (by omega), f3 29 (by omega), f2 29 (by omega)]
    have fb : p₇[61]? = p₄[61]? := by rw [f7 61 (by omega), f6 61 (by omega), f5 61 (by omega)]
    refine ⟨p₇, charging_chain.mpr ⟨hv, c₁, c₂, p₀, p₁, _, p₃, p₄, _, p₆, limit, h₁, h₂, a, b, w1, c, d, w2, e, g, hl, ?_, ?_⟩⟩
    · refine (belowUpper_iff (p := p₇) (i := 28) ?_).mpr hlt
      rw [read_congr fa]
      exact (V3_upper h₁ b).2
    · refine (belowUpper_iff (p := p₇) (i := 60) ?_).mpr hlt
      rw [read_congr fb]
      exact (V3_upper h₂ d).2

/-! ### C122: the parameters of the caller -/

/-- C122 fails for charging procedures: after a generated procedure the first charging current, the
second and the end of the first stage in the caller's parameters are overwritten -/
theorem C122_charging_violated (file : List Waveform.Line) (index : Int) (q q' : Rapid) (path : Str) (p p' : List Step)
    (h : charging file index q path p = (.ok p', q')) :
    q'.reg.chargeCC1 = 1 ∧ q'.reg.chargeCC2 = q.currentParam4 ∧ q'.reg.chargePercentLimit1 = q.fastSocLimit ∧
    (q.reg.chargeCC1 ≠ 1 ∨ q.reg.chargeCC2 ≠ q.currentParam4 ∨ q.reg.chargePercentLimit1 ≠ q.fastSocLimit → q' ≠ q) := by
  have hq : q' = prepare q := by
    simp only [charging] at h
    split at h
    · split at h
      · cases h
      · exact ((Prod.mk.inj h).2).symm
    · cases h
  subst hq
  refine ⟨rfl, rfl, rfl, ?_⟩
  intro hne he
  rcases hne with hne | hne | hne
  · exact hne (congrArg (fun q => q.reg.chargeCC1) he).symm
  · exact hne (congrArg (fun q => q.reg.chargeCC2) he).symm
  · exact hne (congrArg (fun q => q.reg.chargePercentLimit1) he).symm

/-- C122, what holds: no other parameter is changed, a rejected parameter set is not changed before the
first charge is written, and generating again with the changed parameters gives the same result and
changes nothing more.  (Missing: the three overwritten ones, see `C122_charging_violated`.) -/
theorem C122_charging_partial (file : List Waveform.Line) (index : Int) (q q' : Rapid) (path : Str) (p : List Step)
    (res : Except Err (List Step)) (h : charging file index q path p = (res, q')) :
    q' = { q with reg := { q.reg with chargeCC1 := q'.reg.chargeCC1, chargeCC2 := q'.reg.chargeCC2,
                                      chargePercentLimit1 := q'.reg.chargePercentLimit1 } } ∧
    (¬ (Resting p 0 ∧ IsStep p 1 "Charge" "Current") ∨ ¬ q.reg.dischargeCutoffVoltage < q.reg.chargeCutoffVoltage → q' = q) ∧
    charging file index q' path p = (res, q') := by
  have hi : ∀ a : Rapid, prepare (prepare a) = prepare a := fun _ => rfl
  simp only [charging] at h
  split at h
  · rename_i hv
    cases hr : run (insertInitialRest 0 index ++ insertResistance 1 q.reg) p with
    | error e =>
      rw [hr] at h
      cases h
      refine ⟨rfl, fun _ => rfl, ?_⟩
      simp only [charging, if_pos hv, hr]
    | ok p₁ =>
      rw [hr] at h
      cases h
      refine ⟨rfl, ?_, ?_⟩
      · rintro (hn | hn)
        · exact absurd ((start_iff index q.reg p).mp ⟨_, hr⟩) hn
        · exact absurd hv hn
      · have hr' : run (insertInitialRest 0 index ++ insertResistance 1 (prepare q).reg) p = .ok p₁ := hr
        have hv' : (prepare q).reg.chargeCutoffVoltage > (prepare q).reg.dischargeCutoffVoltage := hv
        simp only [charging, if_pos hv', hr', hi]
  · rename_i hv
    cases h
    refine ⟨rfl, fun _ => rfl, ?_⟩
    simp only [charging, if_neg hv]

/-! ### non-vacuity -/

/-- a waveform file -/
def wavePath : Str := "/data/mwf/US06_x4_25W.MWF".toList

example : WaveFile wavePath "/data/mwf/".toList "US06_x4_25W".toList ∧ '.' ∉ "/data/mwf/".toList ++ "US06_x4_25W".toList :=
  ⟨⟨"MWF".toList, by decide, .inr (by decide), by decide, by decide⟩, by decide⟩

-- the procedure with the steps of the template of version 3 is accepted, and plays the waveform
example : ((driving 7 (params 15) wavePath Props.Inserted.template).toOption.map (fun p => [32, 64].map (fun i => p[i]?.map Step.stepValue))) =
    some [some (.text "US06_x4_25W".toList), some (.text "US06_x4_25W".toList)] := by decide +kernel

/-- parameters of a charging project -/
def rapid : Rapid := { reg := params 15, currentParam4 := 3 / 2, fastSocLimit := 60 }

/-- a line of a waveform file that is limited to 3.8 V -/
def waveLine : Waveform.Line :=
  { state := "C".toList, controlMode := "I".toList, value := some 2, limitMode := "V".toList, limitValue := 38 / 10, duration := 10,
    endMode := "T".toList, operation := ">=".toList, endModeValue := 10, reportMode := "T".toList, reportValue := 1, range := "A".toList }

-- a charging procedure is generated, with the waveform, the second stage at 1.5 C and the loop counts
example : ((charging [waveLine] 7 rapid wavePath Props.Inserted.template).1.toOption.map
    (fun p => [28, 29, 60].map (fun i => p[i]?.map Step.stepValue))) =
    some [some (.text "US06_x4_25W".toList), some (.num (15 / 2)), some (.text "US06_x4_25W".toList)] := by decide +kernel

-- the caller's parameters are not what they were
example : rapid.reg.chargeCC2 ≠ rapid.currentParam4 := by decide +kernel

-- a path that starts with a dot, and a file name with a dot: the wrong name is written
example : ((driving 7 (params 15) "./US06.MWF".toList Props.Inserted.template).toOption.bind (fun p => p[32]?.map Step.stepValue)) =
    some (.text []) ∧
    ((driving 7 (params 15) "US06_2.5C.MWF".toList Props.Inserted.template).toOption.bind (fun p => p[32]?.map Step.stepValue)) =
    some (.text "US06_2".toList) := by decide +kernel

example : WaveFile "US06_2.5C.MWF".toList [] "US06_2.5C".toList ∧
    "US06_2.5C.MWF".toList = [] ++ ("US06_2".toList ++ '.' :: "5C.MWF".toList) :=
  ⟨⟨"MWF".toList, by decide, .inl rfl, by decide, by decide⟩, by decide⟩

end Beep.Props.WaveProcedure
