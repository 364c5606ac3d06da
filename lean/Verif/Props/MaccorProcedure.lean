import Verif.Proof.MaccorProcedure
/-
Theorems about Maccor procedures: C36, C37, C40, C61, C66.
-/
namespace Beep.Props.MaccorProcedure
open Beep Text MaccorProcedure Spec.MaccorProcedure Proof.MaccorProcedure

/-! ### Durations (C36) -/

/-- C36 for the charge of the regular cycle (v2): each duration below a day that is inserted is the
duration of its step.  A day or more is excluded: see `C36_charge_day_violated`. -/
theorem C36_chargeV2_partial (i : Nat) (r : RegParam) (prog : List Instr) (p p' : List Step)
    (hp : insertChargeV2 i r = .ok prog) (h : run prog p = .ok p') :
    (∀ x, x = 3600 * (r.chargePercentLimit1 / 100) / r.chargeCC1 → 0 ≤ x → x < 86399 + 1 / 2 →
      Lasts p' i x) ∧
    (0 ≤ r.chargeCVTime → 60 * r.chargeCVTime < 86399 + 1 / 2 →
      Lasts p' (i + 2) (60 * r.chargeCVTime)) ∧
    (0 ≤ r.chargeRestTime → 60 * r.chargeRestTime < 86399 + 1 / 2 →
      Lasts p' (i + 3) (60 * r.chargeRestTime)) := by
  simp only [insertChargeV2, window, bind, Except.bind] at hp
  split at hp
  · cases hp
  · rename_i t ht
    split at ht
    · cases ht
    · cases ht
      cases hp
      refine ⟨?_, ?_, ?_⟩
      · rintro x rfl h0 h1
        exact lasts h (by simp [expect]) (by simp [expect, chargeTail, lastEnd]) h0 h1
      · intro h0 h1
        exact lasts h (by simp [expect, chargeTail]) (by simp [expect, chargeTail, lastEnd])
          (by linarith) h1
      · intro h0 h1
        exact lasts h (by simp [expect, chargeTail]) (by simp [expect, chargeTail, lastEnd])
          (by linarith) h1

/-- C36 for the charge of the regular cycle (v3) -/
theorem C36_chargeV3_partial (i : Nat) (r : RegParam) (prog : List Instr) (p p' : List Step)
    (hp : insertChargeV3 i r = .ok prog) (h : run prog p = .ok p') :
    (∀ x, x = 3600 * (r.chargePercentLimit1 / 100) / r.chargeCC1 → 0 ≤ x → x < 86399 + 1 / 2 →
      Lasts p' i x) ∧
    (0 ≤ r.chargeCVTime → 60 * r.chargeCVTime < 86399 + 1 / 2 →
      Lasts p' (i + 2) (60 * r.chargeCVTime)) ∧
    (0 ≤ r.chargeRestTime → 60 * r.chargeRestTime < 86399 + 1 / 2 →
      Lasts p' (i + 3) (60 * r.chargeRestTime)) := by
  simp only [insertChargeV3, window, bind, Except.bind] at hp
  split at hp
  · cases hp
  · rename_i t ht
    split at ht
    · cases ht
    · cases ht
      cases hp
      refine ⟨?_, ?_, ?_⟩
      · rintro x rfl h0 h1
        exact lasts h (by simp [expect]) (by simp [expect, chargeTail, lastEnd]) h0 h1
      · intro h0 h1
        exact lasts h (by simp [expect, chargeTail]) (by simp [expect, chargeTail, lastEnd])
          (by linarith) h1
      · intro h0 h1
        exact lasts h (by simp [expect, chargeTail]) (by simp [expect, chargeTail, lastEnd])
          (by linarith) h1

/-- C36 for the rest after the discharge of the regular cycle -/
theorem C36_discharge_partial (i : Nat) (r : RegParam) (p p' : List Step)
    (h : run (insertDischarge i r) p = .ok p') (h0 : 0 ≤ r.dischargeRestTime)
    (h1 : 60 * r.dischargeRestTime < 86399 + 1 / 2) :
    Lasts p' (i + 1) (60 * r.dischargeRestTime) :=
  lasts h (by simp [insertDischarge, expect]) (by simp [insertDischarge, expect, lastEnd])
    (by linarith) h1

/-- C36 for the HPPC cycle: rest, pulses (whole seconds), pulse rest and the discharge between
pulses (one second less than the interval takes) -/
theorem C36_hppc_partial (i : Nat) (cap : Rat) (d : DiagParam) (prog : List Instr)
    (p p' : List Step) (hp : insertHppc i cap d = .ok prog) (h : run prog p = .ok p') :
    (0 ≤ d.hppcRestTime → 60 * d.hppcRestTime < 86399 + 1 / 2 →
      Lasts p' (i + 2) (60 * d.hppcRestTime)) ∧
    (0 ≤ d.hppcDuration1 → d.hppcDuration1 < 86400 → LastsDown p' (i + 3) d.hppcDuration1) ∧
    (0 ≤ d.hppcPulseRest → d.hppcPulseRest < 86399 + 1 / 2 → Lasts p' (i + 4) d.hppcPulseRest) ∧
    (0 ≤ d.hppcDuration2 → d.hppcDuration2 < 86400 → LastsDown p' (i + 5) d.hppcDuration2) ∧
    (∀ x, x = 3600 * (d.hppcInterval / 100) / d.hppcBaseline - 1 → 0 ≤ x → x < 86399 + 1 / 2 →
      Lasts p' (i + 6) x) := by
  simp only [insertHppc] at hp
  split at hp
  · cases hp
  · cases hp
    refine ⟨?_, ?_, ?_, ?_, ?_⟩
    · intro h0 h1
      exact lasts h (by simp [expect]) (by simp [expect, lastEnd]) (by linarith) h1
    · intro h0 h1
      exact lastsDown h (by simp [expect]) (by simp [expect, lastEnd]) h0 h1
    · intro h0 h1
      exact lasts h (by simp [expect]) (by simp [expect, lastEnd]) h0 h1
    · intro h0 h1
      exact lastsDown h (by simp [expect]) (by simp [expect, lastEnd]) h0 h1
    · rintro x rfl h0 h1
      exact lasts h (by simp [expect]) (by simp [expect, lastEnd]) h0 h1

/-- C36 fails for every duration of a day or more: whole days disappear from what is written -/
theorem C36_charge_day_violated (i : Nat) (r : RegParam) (prog : List Instr) (p p' : List Step)
    (hp : insertChargeV2 i r = .ok prog) (h : run prog p = .ok p') :
    (86400 ≤ 60 * r.chargeRestTime → ¬ Lasts p' (i + 3) (60 * r.chargeRestTime)) ∧
    (86400 ≤ 60 * r.chargeCVTime → ¬ Lasts p' (i + 2) (60 * r.chargeCVTime)) ∧
    (∀ x, x = 3600 * (r.chargePercentLimit1 / 100) / r.chargeCC1 → 86400 ≤ x → ¬ Lasts p' i x) := by
  simp only [insertChargeV2, window, bind, Except.bind] at hp
  split at hp
  · cases hp
  · rename_i t ht
    split at ht
    · cases ht
    · cases ht
      cases hp
      refine ⟨?_, ?_, ?_⟩
      · exact not_lasts h (by simp [expect, chargeTail, lastEnd]; rfl)
      · exact not_lasts h (by simp [expect, chargeTail, lastEnd]; rfl)
      · rintro x rfl
        exact not_lasts h (by simp [expect, chargeTail, lastEnd]; rfl)

/-- C36 fails for a rest of a day or more after discharge -/
theorem C36_discharge_day_violated (i : Nat) (r : RegParam) (p p' : List Step)
    (h : run (insertDischarge i r) p = .ok p') (h1 : 86400 ≤ 60 * r.dischargeRestTime) :
    ¬ Lasts p' (i + 1) (60 * r.dischargeRestTime) :=
  not_lasts h (by simp [insertDischarge, expect, lastEnd]; rfl) h1

/-- a small template with the four charge steps of the regular cycle -/
def template : List Step :=
  let e (t : String) : EndE := ⟨none, t.toList, some "=".toList, "002".toList, .text "00:00:00".toList⟩
  let s (ty mode : String) (es : List EndE) : Step :=
    ⟨ty.toList, some mode.toList, .null, none, some (.many es), none, []⟩
  [s "Charge" "Current" [e "StepTime", e "Voltage"], s "Charge" "Current" [e "Voltage"],
   s "Charge" "Voltage" [e "StepTime"], s "Rest" "" [e "StepTime"]]

/-- parameters asking for a charge rest of `rest` minutes -/
def params (rest : Rat) : RegParam :=
  ⟨1, 30, 2, 4, 30, rest, 1, 3, 15, 5, 30, 100⟩

-- the insertion succeeds on the template: 15 minutes are written as 00:15:00, a day and a minute
-- as 00:01:00
example : ((insertChargeV2 0 (params 15)).toOption.bind (fun c => (run c template).toOption)).bind
    (fun p => (entry p 3 0).map EndE.value) = some (.text "00:15:00".toList) := by decide +kernel

example : ((insertChargeV2 0 (params 1441)).toOption.bind (fun c => (run c template).toOption)).bind
    (fun p => (entry p 3 0).map EndE.value) = some (.text "00:01:00".toList) := by decide +kernel

/-! ### Initial rests (C37) -/

theorem nearest_int (n : Int) : nearest (n : Rat) = n := by
  have h := nearest_bounds (n : Rat)
  have h1 : (nearest (n : Rat) : Rat) < (n : Rat) + 1 := by linarith
  have h2 : (n : Rat) < (nearest (n : Rat) : Rat) + 1 := by linarith
  have h1' : nearest (n : Rat) < n + 1 := by exact_mod_cast h1
  have h2' : n < nearest (n : Rat) + 1 := by exact_mod_cast h2
  omega

theorem rest_seconds (index : Int) :
    nearest (3 * 3600 + 720 * ((index % 96 : Int) : Rat)) = 10800 + 720 * (index % 96) := by
  have : (3 * 3600 + 720 * ((index % 96 : Int) : Rat)) = ((10800 + 720 * (index % 96) : Int) : Rat) := by
    push_cast; norm_num
  rw [this, nearest_int]

theorem rest_denotes (index : Int) :
    Denotes (hms (nearest (3 * 3600 + 720 * ((index % 96 : Int) : Rat))))
      (10800 + 720 * (index % 96)).toNat := by
  have h0 : 0 ≤ index % 96 := Int.emod_nonneg _ (by decide)
  have h1 : index % 96 < 96 := Int.emod_lt_of_pos _ (by decide)
  rw [rest_seconds]
  exact denotes_hms_of_lt (by omega) (by omega)

/-- C37: the initial rest is between 3 h and 22 h, a whole number of 12 minute slots after 3 h, and
is written without wrap-around -/
theorem C37_rest_written (i : Nat) (index : Int) (p p' : List Step)
    (h : run (insertInitialRest i index) p = .ok p') :
    ∃ n : Nat, EndTime p' i 0 n ∧ 3 * 3600 ≤ n ∧ n ≤ 22 * 3600 ∧
      (n : Int) = 3 * 3600 + 12 * 60 * (index % 96) := by
  have h0 : 0 ≤ index % 96 := Int.emod_nonneg _ (by decide)
  have h1 : index % 96 < 96 := Int.emod_lt_of_pos _ (by decide)
  refine ⟨(10800 + 720 * (index % 96)).toNat,
    run_time h (by simp [insertInitialRest]) (by simp [insertInitialRest, lastEnd])
      (rest_denotes index), by omega, by omega, by omega⟩

/-- C37: protocol indices less than 96 apart get rests at least 12 minutes apart (a nonzero multiple
of 12 minutes), whatever procedures they are written into -/
theorem C37_rests_differ (i : Nat) (a b : Int) (p q p' q' : List Step) (n m : Nat)
    (ha : run (insertInitialRest i a) p = .ok p') (hb : run (insertInitialRest i b) q = .ok q')
    (hab : a < b) (hlt : b < a + 96) (hn : EndTime p' i 0 n) (hm : EndTime q' i 0 m) :
    (n + 720 ≤ m ∨ m + 720 ≤ n) ∧ (720 : Int) ∣ (n : Int) - m := by
  have h1 := run_time_unique ha (by simp [insertInitialRest, lastEnd]; rfl) hn
  have h2 := run_time_unique hb (by simp [insertInitialRest, lastEnd]; rfl) hm
  have e1 := denotes_unique h1 (rest_denotes a)
  have e2 := denotes_unique h2 (rest_denotes b)
  have := Int.emod_nonneg a (by decide : (96 : Int) ≠ 0)
  have := Int.emod_nonneg b (by decide : (96 : Int) ≠ 0)
  refine ⟨by omega, ?_⟩
  exact ⟨a % 96 - b % 96, by omega⟩

/-- C37: any 96 consecutive indices use every slot: each of the 96 rests 3 h + 12 min · k is the
rest of one of them (and of only one, by `C37_rests_differ`) -/
theorem C37_slots_used (a : Int) (k : Nat) (hk : k < 96) :
    ∃ index : Int, (a ≤ index ∧ index < a + 96) ∧
      (∀ (i : Nat) (p p' : List Step), run (insertInitialRest i index) p = .ok p' →
        EndTime p' i 0 (3 * 3600 + 12 * 60 * k)) := by
  refine ⟨a + (k - a) % 96, ⟨by have := Int.emod_nonneg (k - a) (by decide : (96 : Int) ≠ 0); omega,
    by have := Int.emod_lt_of_pos (k - a) (by decide : (0 : Int) < 96); omega⟩, ?_⟩
  intro i p p' h
  have hmod : (a + ((k : Int) - a) % 96) % 96 = k := by omega
  obtain ⟨n, hn, -, -, he⟩ := C37_rest_written i _ p p' h
  rw [hmod] at he
  have : n = 3 * 3600 + 12 * 60 * k := by omega
  rwa [this] at hn

/-- C37: the initial rest is still there in the finished procedure -/
theorem C37_procedure (index : Int) (r : RegParam) (p p' : List Step)
    (h : regcycleV3 index r p = .ok p') :
    ∃ n : Nat, EndTime p' 0 0 n ∧ (n : Int) = 3 * 3600 + 12 * 60 * (index % 96) := by
  have h0 : 0 ≤ index % 96 := Int.emod_nonneg _ (by decide)
  simp only [regcycleV3, insertChargeV3, bind, Except.bind] at h
  split at h
  · split at h
    · cases h
    · rename_i c₁ hc₁
      split at hc₁
      · cases hc₁
      · rename_i t₁ ht₁
        split at h
        · cases h
        · rename_i c₂ hc₂
          rw [ht₁] at hc₂
          cases hc₁
          cases hc₂
          refine ⟨(10800 + 720 * (index % 96)).toNat, run_time h (by simp [insertInitialRest])
            (by simp [insertInitialRest, insertResistance, insertDischarge, insertStorage, expect,
              chargeTail, lastEnd]) (rest_denotes index), by omega⟩
  · cases h

-- index 100 rests 3 h 48 min, index 95 rests 22 h
example : ((run (insertInitialRest 3 100) template).toOption).bind
    (fun p => (entry p 3 0).map EndE.value) = some (.text "03:48:00".toList) := by decide +kernel

example : ((run (insertInitialRest 3 95) template).toOption).bind
    (fun p => (entry p 3 0).map EndE.value) = some (.text "22:00:00".toList) := by decide +kernel

/-! ### Formatting (C40) -/

/-- C40: every step of the formatted procedure is the step at the same place with blanks added -/
theorem C40_only_pads (p : List Step) : List.Forall₂ FormattedStep p (formatMaccor p) :=
  forall₂_map_right p formattedStep

/-- C40: formatting twice is the same as formatting once -/
theorem C40_idempotent (p : List Step) : formatMaccor (formatMaccor p) = formatMaccor p := by
  simp only [formatMaccor, List.map_map]
  apply List.map_congr_left
  intro s _
  exact formatStep_idem s

theorem lstrip_blanks (n : Nat) (s : Str) : lstrip (List.replicate n ' ' ++ s) = lstrip s := by
  induction n with
  | zero => rfl
  | succ n ih =>
    rw [List.replicate_succ, List.cons_append]
    unfold lstrip at *
    rw [List.dropWhile_cons_of_pos (by decide)]
    exact ih

theorem rstrip_blanks (n : Nat) (s : Str) : rstrip (s ++ List.replicate n ' ') = rstrip s := by
  unfold rstrip
  rw [List.reverse_append, List.reverse_replicate]
  have := lstrip_blanks n s.reverse
  unfold lstrip at this
  rw [this]

theorem lstrip_append_blanks (s : Str) (n : Nat) :
    ∃ m, lstrip (s ++ List.replicate n ' ') = lstrip s ++ List.replicate m ' ' := by
  induction s with
  | nil =>
    refine ⟨0, ?_⟩
    have := lstrip_blanks n []
    simpa using this
  | cons c s ih =>
    unfold lstrip at *
    rw [List.cons_append]
    by_cases h : isWs c = true
    · rw [List.dropWhile_cons_of_pos h, List.dropWhile_cons_of_pos h]
      exact ih
    · rw [List.dropWhile_cons_of_neg h, List.dropWhile_cons_of_neg h]
      exact ⟨n, rfl⟩

/-- C40: a padded text and the original are the same once surrounding blanks are stripped, which is
what reading the file does -/
theorem C40_strip (w : Nat) (s s' : Str) (h : Pads w s s') : strip s' = strip s := by
  obtain ⟨⟨a, b, rfl⟩, -⟩ := h
  unfold strip
  rw [List.append_assoc, lstrip_blanks]
  obtain ⟨m, hm⟩ := lstrip_append_blanks s b
  rw [hm, rstrip_blanks]

-- the step type "Rest" becomes "  Rest  ", the operator "=" becomes " = ", ">=" becomes ">= "
example : (formatMaccor template)[3]?.map Step.stepType = some "  Rest  ".toList := by decide +kernel

example : (entry (formatMaccor template) 3 0).bind EndE.oper = some " = ".toList := by decide +kernel

/-! ### Edits (C61) -/

/-- C61: `modify_step_value` changes the value of the addressed step if its type is the given one,
and nothing else -/
theorem C61_modify_step_value (num : Int) (ty : Str) (v : Val) (p : List Step) :
    (modifyStepValue num ty v p).length = p.length ∧
    ∀ (i : Nat) (s : Step), p[i]? = some s →
      ∃ s', (modifyStepValue num ty v p)[i]? = some s' ∧
        ((i : Int) = num ∧ s.stepType = ty → s' = { s with stepValue := v }) ∧
        (¬ ((i : Int) = num ∧ s.stepType = ty) → s' = s) := by
  unfold modifyStepValue
  refine ⟨List.length_mapIdx, ?_⟩
  intro i s hs
  refine ⟨_, by rw [List.getElem?_mapIdx, hs]; rfl, ?_, ?_⟩
  · intro h; dsimp only; rw [if_pos h]
  · intro h; dsimp only; rw [if_neg h]

theorem skipped (maxV minV : Rat) (key : Str) (newKey : Option Str) (goto : Str) (e : EndE)
    (hg : goto = match newKey with
      | some k => if k = [] then key else k
      | none => key) : Skipped maxV minV key goto e (skipEnd maxV minV key newKey e) := by
  have hne : ">=".toList ≠ "<=".toList := by decide
  refine ⟨?_, ?_, ?_⟩
  · intro h
    simp only [skipEnd]
    rw [if_pos (show e.step = key ∧ e.endType = "Voltage".toList ∧ e.oper = some ">=".toList from h)]
    refine ⟨⟨rfl, rfl, rfl⟩, rfl, ?_⟩
    rw [hg]
    cases newKey with
    | none => exact h.1
    | some k => dsimp only; rw [h.1]
  · intro h
    simp only [skipEnd]
    have hn : ¬ (e.step = key ∧ e.endType = "Voltage".toList ∧ e.oper = some ">=".toList) := by
      intro h'
      have := h'.2.2
      rw [h.2.2] at this
      cases this
    rw [if_neg hn,
      if_pos (show e.step = key ∧ e.endType = "Voltage".toList ∧ e.oper = some "<=".toList from h)]
    refine ⟨⟨rfl, rfl, rfl⟩, rfl, ?_⟩
    rw [hg]
    cases newKey with
    | none => exact h.1
    | some k => dsimp only; rw [h.1]
  · intro h1 h2
    simp only [skipEnd]
    rw [if_neg (show ¬ (e.step = key ∧ e.endType = "Voltage".toList ∧ e.oper = some ">=".toList) from h1),
      if_neg (show ¬ (e.step = key ∧ e.endType = "Voltage".toList ∧ e.oper = some "<=".toList) from h2)]

/-- C61: `set_skip_to_end_diagnostic` edits the matching entries of every step with a list of end
entries and nothing else.  Missing: steps with a single end entry, see
`C61_set_skip_violated`. -/
theorem C61_set_skip_partial (maxV minV : Rat) (key : Str) (newKey : Option Str) (goto : Str)
    (p : List Step) (hg : goto = match newKey with
      | some k => if k = [] then key else k
      | none => key) (hsingle : ∀ s ∈ p, ∀ e, s.ends = some (.one e) →
        ¬ Leads key ">=".toList e ∧ ¬ Leads key "<=".toList e) :
    List.Forall₂ (fun s s' => SameButEnds s s' ∧
        List.Forall₂ (Skipped maxV minV key goto) (entries s.ends) (entries s'.ends))
      p (setSkip maxV minV key newKey p) := by
  unfold setSkip
  induction p with
  | nil => exact .nil
  | cons s p ih =>
    refine .cons ?_ (ih (fun s' hs' => hsingle s' (List.mem_cons_of_mem _ hs')))
    have hs := hsingle s List.mem_cons_self
    cases s with | mk ty mode v lim ends reps other =>
    cases ends with
    | none => exact ⟨⟨rfl, rfl, rfl, rfl, rfl, rfl⟩, .nil⟩
    | some x =>
      cases x with
      | one e =>
        refine ⟨⟨rfl, rfl, rfl, rfl, rfl, rfl⟩, .cons ?_ .nil⟩
        obtain ⟨h1, h2⟩ := hs e rfl
        exact ⟨fun h => absurd h h1, fun h => absurd h h2, fun _ _ => rfl⟩
      | many es =>
        refine ⟨⟨rfl, rfl, rfl, rfl, rfl, rfl⟩, ?_⟩
        exact forall₂_map_right es (fun e => skipped maxV minV key newKey goto e hg)

/-- C61 fails for every matching entry that is the only end entry of its step: it is left as it
was -/
theorem C61_set_skip_violated (maxV minV : Rat) (key goto : Str) (newKey : Option Str)
    (p : List Step) (i : Nat) (s : Step) (e : EndE) (hi : p[i]? = some s)
    (he : s.ends = some (.one e)) (hm : Leads key ">=".toList e) (hv : e.value ≠ .num maxV) :
    ∃ s', (setSkip maxV minV key newKey p)[i]? = some s' ∧
      ¬ List.Forall₂ (Skipped maxV minV key goto) (entries s.ends) (entries s'.ends) := by
  refine ⟨s, ?_, ?_⟩
  · unfold setSkip
    rw [List.getElem?_map, hi]
    simp [skipStep, he]
  · rw [he]
    intro h
    cases h with
    | cons h _ => exact hv (h.1 hm).2.1

/-- a step leading to the ending diagnostic, with a list of two end entries -/
def skipTemplate : List Step :=
  let e (o : String) : EndE := ⟨none, "Voltage".toList, some o.toList, "070".toList, .text "1".toList⟩
  [⟨"Charge".toList, none, .null, none, some (.many [e ">=", e "<="]), none, []⟩,
   ⟨"Rest".toList, none, .null, none, some (.one (e ">=")), none, []⟩]

example : ((setSkip (42 / 10) 2 "070".toList (some "095".toList) skipTemplate).map
    (fun s => (entries s.ends).map (fun e => (e.value, e.step)))) =
    [[(.num (42 / 10), "095".toList), (.num 2, "095".toList)], [(.text "1".toList, "070".toList)]] := by
  decide +kernel

example : (modifyStepValue 1 "Rest".toList (.num 3) skipTemplate).map Step.stepValue =
    [.null, .num 3] := by decide +kernel

/-! ### Insertions touch only their own steps (C66) -/

/-- C66 for the insertions of the regular cycle -/
theorem C66_regular_cycle (i : Nat) (r : RegParam) (p p' : List Step) :
    (∀ prog, insertChargeV2 i r = .ok prog → run prog p = .ok p' →
      OnlyTouches (fun j => i ≤ j ∧ j ≤ i + 3) p p') ∧
    (∀ prog, insertChargeV3 i r = .ok prog → run prog p = .ok p' →
      OnlyTouches (fun j => i ≤ j ∧ j ≤ i + 3) p p') ∧
    (run (insertDischarge i r) p = .ok p' →
      OnlyTouches (fun j => j = i ∨ j = i + 1 ∨ j = i + 3) p p') ∧
    (∀ k, run (insertStorage k i r) p = .ok p' → OnlyTouches (fun j => j = i ∨ j = i + 1) p p') ∧
    (run (insertResistance i r) p = .ok p' → OnlyTouches (fun j => j = i) p p') ∧
    (∀ index, run (insertInitialRest i index) p = .ok p' → OnlyTouches (fun j => j = i) p p') := by
  have mono : ∀ {A B : Nat → Prop}, OnlyTouches A p p' → (∀ j, A j → B j) → OnlyTouches B p p' :=
    fun h hAB => ⟨h.1, fun j hj => h.2 j (fun ha => hj (hAB j ha))⟩
  refine ⟨?_, ?_, ?_, ?_, ?_, ?_⟩
  · intro prog hp h
    simp only [insertChargeV2, bind, Except.bind] at hp
    split at hp
    · cases hp
    · cases hp
      refine mono (run_only h) ?_
      rintro j ⟨c, hc, ht⟩
      simp only [expect, chargeTail, List.mem_append, List.mem_cons, List.not_mem_nil, or_false] at hc
      rcases hc with (((hc | hc) | hc | hc | hc) | ((((hc | hc) | hc | hc | hc) | hc | hc) |
        hc | hc | hc | hc | hc | hc)) <;> subst hc <;>
        simp only [target, Option.some.injEq, reduceCtorEq] at ht <;> omega
  · intro prog hp h
    simp only [insertChargeV3, bind, Except.bind] at hp
    split at hp
    · cases hp
    · cases hp
      refine mono (run_only h) ?_
      rintro j ⟨c, hc, ht⟩
      simp only [expect, chargeTail, List.mem_append, List.mem_cons, List.not_mem_nil, or_false] at hc
      rcases hc with (((hc | hc) | hc | hc | hc | hc | hc) | ((((hc | hc) | hc | hc | hc) | hc | hc) |
        hc | hc | hc | hc | hc | hc)) <;> subst hc <;>
        simp only [target, Option.some.injEq, reduceCtorEq] at ht <;> omega
  · intro h
    refine mono (run_only h) ?_
    rintro j ⟨c, hc, ht⟩
    simp only [insertDischarge, expect, List.mem_append, List.mem_cons, List.not_mem_nil, or_false] at hc
    rcases hc with ((hc | hc) | hc | hc | hc | hc | hc | hc | hc) <;> subst hc <;>
      simp only [target, Option.some.injEq, reduceCtorEq] at ht <;> omega
  · intro k h
    refine mono (run_only h) ?_
    rintro j ⟨c, hc, ht⟩
    simp only [insertStorage, expect, List.mem_append, List.mem_cons, List.not_mem_nil, or_false] at hc
    rcases hc with ((((hc | hc) | hc | hc | hc | hc) | hc | hc) | hc | hc | hc) <;> subst hc <;>
      simp only [target, Option.some.injEq, reduceCtorEq] at ht <;> omega
  · intro h
    refine mono (run_only h) ?_
    rintro j ⟨c, hc, ht⟩
    simp only [insertResistance, expect, List.mem_append, List.mem_cons, List.not_mem_nil, or_false] at hc
    rcases hc with ((hc | hc) | hc) <;> subst hc <;>
      simp only [target, Option.some.injEq, reduceCtorEq] at ht <;> omega
  · intro index h
    refine mono (run_only h) ?_
    rintro j ⟨c, hc, ht⟩
    simp only [insertInitialRest, List.mem_cons, List.not_mem_nil, or_false] at hc
    rcases hc with (hc | hc | hc) <;> subst hc <;>
      simp only [target, Option.some.injEq, reduceCtorEq] at ht <;> omega

theorem touches_filterMap {cs : List Instr} {p p' : List Step} (h : run cs p = .ok p')
    {B : Nat → Prop} (hB : ∀ j ∈ cs.filterMap target, B j) : OnlyTouches B p p' := by
  have hr := run_only h
  refine ⟨hr.1, fun j hj => hr.2 j ?_⟩
  rintro ⟨c, hc, ht⟩
  exact hj (hB j (List.mem_filterMap.mpr ⟨c, hc, ht⟩))

/-- C66 for the insertions of the diagnostic cycles -/
theorem C66_diagnostic_cycles (i : Nat) (cap : Rat) (d : DiagParam) (p p' : List Step) :
    (run (insertReset i cap d) p = .ok p' → OnlyTouches (fun j => j = i ∨ j = i + 1) p p') ∧
    (∀ prog, insertHppc i cap d = .ok prog → run prog p = .ok p' →
      OnlyTouches (fun j => j = i ∨ (i + 2 ≤ j ∧ j ≤ i + 6) ∨ j = i + 8) p p') ∧
    (run (insertRpt i cap d) p = .ok p' →
      OnlyTouches (fun j => i ≤ j ∧ j ≤ i + 7 ∧ j ≠ i + 2 ∧ j ≠ i + 5) p p') := by
  refine ⟨?_, ?_, ?_⟩
  · intro h
    refine touches_filterMap h ?_
    intro j hj
    simp [insertReset, expect, target] at hj
    omega
  · intro prog hp h
    simp only [insertHppc] at hp
    split at hp
    · cases hp
    · cases hp
      refine touches_filterMap h ?_
      intro j hj
      simp [expect, target] at hj
      omega
  · intro h
    refine touches_filterMap h ?_
    intro j hj
    simp [insertRpt, rptPair, expect, target] at hj
    omega

/-- C66 for the whole procedure: number, order, types, modes, reports, end types, operators and
goto steps of the template are kept, and the steps between the parametrised blocks are
untouched -/
theorem C66_procedure (index : Int) (r : RegParam) (p p' : List Step)
    (h : regcycleV3 index r p = .ok p') :
    OnlyTouches (fun j => j ∈ [0, 1, 28, 29, 30, 31, 32, 33, 35, 60, 61, 62, 63, 64, 65, 67, 93, 94])
      p p' := by
  simp only [regcycleV3, insertChargeV3, bind, Except.bind] at h
  split at h
  · split at h
    · cases h
    · rename_i c₁ hc₁
      split at hc₁
      · cases hc₁
      · rename_i t₁ ht₁
        split at h
        · cases h
        · rename_i c₂ hc₂
          rw [ht₁] at hc₂
          cases hc₁
          cases hc₂
          refine touches_filterMap h ?_
          intro j hj
          simp [insertInitialRest, insertResistance, insertDischarge, insertStorage, expect,
            chargeTail, target] at hj
          simp only [List.mem_cons, List.not_mem_nil, or_false]
          omega
  · cases h

/-- a procedure with the steps of the regular cycle template -/
def template95 : List Step :=
  let e (t : String) : EndE := ⟨none, t.toList, some "=".toList, "002".toList, .text "00:00:00".toList⟩
  let s (ty mode : String) (es : Ends) : Step :=
    ⟨ty.toList, some mode.toList, .null, some [], some es, none, []⟩
  (List.range 95).map (fun i =>
    if i = 1 then s "Charge" "Current" (.many [e "Voltage"])
    else if i = 28 ∨ i = 60 then s "Charge" "Current" (.many [e "StepTime", e "Voltage"])
    else if i = 29 ∨ i = 61 then s "Charge" "Current" (.many [e "Voltage"])
    else if i = 30 ∨ i = 62 then s "Charge" "Voltage" (.many [e "StepTime"])
    else if i = 32 ∨ i = 64 then s "Dischrge" "Current" (.many [e "Voltage"])
    else if i = 35 then s "Loop 1" "" (.one (e "Loop Cnt"))
    else if i = 67 then s "Loop 2" "" (.one (e "Loop Cnt"))
    else if i = 93 then s "Dischrge" "Current" (.many [e "Current"])
    else if i = 94 then s "Charge" "Current" (.many [e "StepTime"])
    else s "Rest" "" (.many [e "StepTime"]))

example : ((regcycleV3 7 (params 15) template95).toOption.bind
    (fun p => (entry p 0 0).map EndE.value)) = some (.text "04:24:00".toList) := by decide +kernel

-- the insertion succeeds on the template
example : ((insertChargeV3 0 (params 15)).toOption.bind
    (fun c => (run c template).toOption)).isSome = true := by decide +kernel

end Beep.Props.MaccorProcedure
