import Verif.Proof.Inserted
import Verif.Props.MaccorProcedure
/-
C69: a generated Maccor procedure commands the requested currents and voltages.
-/
namespace Beep.Props.Inserted
open Beep MaccorProcedure Spec.MaccorProcedure Spec.Inserted Proof.MaccorProcedure Proof.Inserted Props.MaccorProcedure

/-- the two cutoff values of a version 3 charge -/
theorem chargeTail_spec (i : Nat) (r : RegParam) (pre : List Instr) (p p' : List Step)
    (h : run (pre ++ chargeTail i r) p = .ok p') :
    Commands p' (i + 1) "Charge" "Current" 1000 (r.chargeCC2 * r.capacityNominal) ∧
    EndsOn p' (i + 1) 0 "Voltage" 1000 r.chargeCutoffVoltage ∧
    (∃ s, p'[i + 2]? = some s ∧ s.stepType = "Charge".toList ∧ s.stepMode = some "Voltage".toList ∧
      s.stepValue = .num r.chargeCutoffVoltage) ∧ Timed p' (i + 2) ∧ Rests p' (i + 3) := by
  obtain ⟨q, -, h⟩ := run_append h
  refine ⟨commands3 h (by simp [chargeTail, expect]) (by simp [chargeTail, expect])
      (by simp [chargeTail, expect, lastWrite, writes]),
    endsOn3 (.nth 0) h (by simp [chargeTail, expect]) (by simp [chargeTail, expect, lastWrite, writes]),
    ?_, timed h (by simp [chargeTail, expect]), rests h (by simp [chargeTail, expect]) (by simp [chargeTail, expect])⟩
  obtain ⟨s, hs, ht⟩ := run_isType h (i := i + 2) (t := "Charge".toList) (by simp [chargeTail, expect])
  obtain ⟨s2, hs2, hm⟩ := run_isMode h (i := i + 2) (t := "Voltage".toList) (by simp [chargeTail, expect])
  rw [hs] at hs2; cases hs2
  have hv := run_written (sl := .value (i + 2)) (c := .setValue (i + 2) (.num r.chargeCutoffVoltage)) h
    (by simp [chargeTail, expect, lastWrite, writes]) rfl
  simp only [Proof.Inserted.read, hs, Option.map_some, Option.some.injEq] at hv
  exact ⟨s, hs, ht, hm, hv⟩

/-- C69 for the charge of a regular cycle, version 2 -/
theorem C69_chargeV2 (i : Nat) (r : RegParam) (prog : List Instr) (p p' : List Step)
    (hp : insertChargeV2 i r = .ok prog) (h : run prog p = .ok p') : Charge r p' i := by
  simp only [insertChargeV2, bind, Except.bind] at hp
  split at hp
  · cases hp
  cases hp
  obtain ⟨a, b, c, d, e⟩ := chargeTail_spec i r _ p p' h
  exact ⟨commands3 h (by simp [expect]) (by simp [expect])
      (by simp [chargeTail, expect, lastWrite, writes]), timed h (by simp [expect]), a, b, c, d, e⟩

/-- C69 for the charge of a regular cycle, version 3 -/
theorem C69_chargeV3 (i : Nat) (r : RegParam) (prog : List Instr) (p p' : List Step)
    (hp : insertChargeV3 i r = .ok prog) (h : run prog p = .ok p') : ChargeV3 r p' i := by
  simp only [insertChargeV3, bind, Except.bind] at hp
  split at hp
  · cases hp
  cases hp
  obtain ⟨a, b, c, d, e⟩ := chargeTail_spec i r _ p p' h
  exact ⟨⟨commands3 h (by simp [expect]) (by simp [expect])
      (by simp [chargeTail, expect, lastWrite, writes]), timed h (by simp [expect]), a, b, c, d, e⟩,
    threshold3 (.nth 1) h (by simp [chargeTail, expect, lastWrite, writes])⟩

/-- C69 for the other parts of the regular cycle -/
theorem C69_regular (i : Nat) (r : RegParam) (p p' : List Step) :
    (run (insertResistance i r) p = .ok p' → Resistance r p' i) ∧
    (run (insertDischarge i r) p = .ok p' → Discharge r p' i) ∧
    (∀ k, k = Sel.one ∨ k = Sel.nth 0 → run (insertStorage k i r) p = .ok p' → Storage r p' i) := by
  refine ⟨?_, ?_, ?_⟩
  · intro h
    have h' := commands3 (x := 1 * r.capacityNominal) (ty := "Charge") (mode := "Current") (i := i) h (by simp [insertResistance, expect])
      (by simp [insertResistance, expect]) (by simp [insertResistance, expect, lastWrite, writes])
    rwa [one_mul] at h'
  · intro h
    refine ⟨commands3 h (by simp [insertDischarge, expect]) (by simp [insertDischarge, expect])
        (by simp [insertDischarge, expect, lastWrite, writes]),
      endsOn3 (.nth 0) h (by simp [insertDischarge, expect]) (by simp [insertDischarge, expect, lastWrite, writes]),
      rests h (by simp [insertDischarge, expect]) (by simp [insertDischarge, expect]), ?_⟩
    exact loops (cs := expect i "Dischrge" "Current" ++
      [.setValue i (n3 (r.dischargeCC * r.capacityNominal)),
       .endIs i (.nth 0) "Voltage".toList,
       .setEnd i (.nth 0) (n3 r.dischargeCutoffVoltage),
       .isType (i + 1) "Rest".toList,
       .endIs (i + 1) (.nth 0) "StepTime".toList,
       .setEnd (i + 1) (.nth 0) (.text (hms (nearest (60 * r.dischargeRestTime))))]) h
  · intro k hk h
    have e1 : (1 : Rat) / 2 * r.capacityNominal = r.capacityNominal / 2 := by ring
    have e2 : (5 : Rat) / 100 * r.capacityNominal = r.capacityNominal / 20 := by ring
    have hord : ord k = 0 := by rcases hk with rfl | rfl <;> rfl
    refine ⟨e1 ▸ commands3 h (by simp [insertStorage, expect]) (by simp [insertStorage, expect])
        (by simp [insertStorage, expect, lastWrite, writes]),
      limited3 (key := "Voltage") h (by simp [insertStorage, expect, lastWrite, writes]),
      e2 ▸ hord ▸ endsOn3 k h (by simp [insertStorage, expect]) (by simp [insertStorage, expect, lastWrite, writes]),
      e1 ▸ commands3 h (by simp [insertStorage, expect]) (by simp [insertStorage, expect])
        (by simp [insertStorage, expect, lastWrite, writes]), timed h (by simp [insertStorage, expect])⟩

theorem pair_spec (i : Nat) (cap rate : Rat) (d : DiagParam) (p p' : List Step)
    (h : run (rptPair i cap rate d) p = .ok p') : RatePair rate cap d p' i :=
  ⟨commands3 h (by simp [rptPair, expect]) (by simp [rptPair, expect]) (by simp [rptPair, expect, lastWrite, writes]),
    limited3 (key := "Voltage") h (by simp [rptPair, expect, lastWrite, writes]),
    endsOn3 (.nth 0) h (by simp [rptPair, expect]) (by simp [rptPair, expect, lastWrite, writes]),
    commands3 h (by simp [rptPair, expect]) (by simp [rptPair, expect]) (by simp [rptPair, expect, lastWrite, writes]),
    endsOn3 (.nth 0) h (by simp [rptPair, expect]) (by simp [rptPair, expect, lastWrite, writes])⟩

theorem pair_touches (i : Nat) (cap rate : Rat) (d : DiagParam) (p p' : List Step)
    (h : run (rptPair i cap rate d) p = .ok p') (j : Nat) (hj : j ≠ i) (hj' : j ≠ i + 1) : p'[j]? = p[j]? := by
  refine (run_only h).2 j ?_
  rintro ⟨c, hc, ht⟩
  simp only [rptPair, expect, List.mem_append, List.mem_cons, List.not_mem_nil, or_false] at hc
  rcases hc with ((((hc | hc) | hc | hc | hc | hc) | hc | hc) | hc | hc | hc) <;> subst hc <;>
    simp only [target, Option.some.injEq, reduceCtorEq] at ht <;> omega

/-- C69 for the diagnostic cycles -/
theorem C69_diagnostic (i : Nat) (cap : Rat) (d : DiagParam) (p p' : List Step) :
    (run (insertReset i cap d) p = .ok p' → Reset cap d p' i) ∧
    (∀ prog, insertHppc i cap d = .ok prog → run prog p = .ok p' → Hppc cap d p' i) ∧
    (run (insertRpt i cap d) p = .ok p' → Rpt cap d p' i) := by
  refine ⟨?_, ?_, ?_⟩
  · intro h
    exact ⟨commands4 h (by simp [insertReset, expect]) (by simp [insertReset, expect])
        (by simp [insertReset, expect, lastWrite, writes]),
      limited3 (key := "Voltage") h (by simp [insertReset, expect, lastWrite, writes]),
      endsOn4 (.nth 0) h (by simp [insertReset, expect]) (by simp [insertReset, expect, lastWrite, writes]),
      commands4 h (by simp [insertReset, expect]) (by simp [insertReset, expect])
        (by simp [insertReset, expect, lastWrite, writes]),
      endsOn3 (.nth 0) h (by simp [insertReset, expect]) (by simp [insertReset, expect, lastWrite, writes])⟩
  · intro prog hp h
    simp only [insertHppc] at hp
    split at hp
    · cases hp
    cases hp
    refine ⟨⟨?_, ?_, ?_⟩, ?_, ⟨?_, ?_, ?_⟩, ?_, ⟨?_, ?_, ?_⟩, ⟨?_, ?_, ?_⟩, ⟨?_, ?_, ?_⟩⟩
    · exact commands3 h (by simp [expect]) (by simp [expect]) (by simp [expect, lastWrite, writes])
    · exact limited3 (key := "Voltage") h (by simp [expect, lastWrite, writes])
    · exact endsOn3 (.nth 0) h (by simp [expect]) (by simp [expect, lastWrite, writes])
    · exact rests h (by simp [expect]) (by simp [expect])
    · exact commands3 h (by simp [expect]) (by simp [expect]) (by simp [expect, lastWrite, writes])
    · exact timed h (by simp [expect])
    · exact endsOn3 (.nth 1) h (by simp [expect]) (by simp [expect, lastWrite, writes])
    · exact rests h (by simp [expect]) (by simp [expect])
    · exact commands3 h (by simp [expect]) (by simp [expect]) (by simp [expect, lastWrite, writes])
    · exact timed h (by simp [expect])
    · exact endsOn3 (.nth 1) h (by simp [expect]) (by simp [expect, lastWrite, writes])
    · exact commands3 h (by simp [expect]) (by simp [expect]) (by simp [expect, lastWrite, writes])
    · exact timed h (by simp [expect])
    · exact endsOn3 (.nth 1) h (by simp [expect]) (by simp [expect, lastWrite, writes])
    · exact commands3 h (by simp [expect]) (by simp [expect]) (by simp [expect, lastWrite, writes])
    · exact limited3 (key := "Current") h (by simp [expect, lastWrite, writes])
    · exact endsOn3 (.nth 0) h (by simp [expect]) (by simp [expect, lastWrite, writes])
  · intro h
    rw [insertRpt] at h
    obtain ⟨q2, h12, h3⟩ := run_append h
    obtain ⟨q1, h1, h2⟩ := run_append h12
    refine ⟨?_, ?_, pair_spec _ _ _ _ _ _ h3⟩
    · refine pair_of (fun j a b => ?_) (pair_spec _ _ _ _ _ _ h1)
      rw [pair_touches _ _ _ _ _ _ h3 j (by omega) (by omega), pair_touches _ _ _ _ _ _ h2 j (by omega) (by omega)]
    · refine pair_of (fun j a b => ?_) (pair_spec _ _ _ _ _ _ h2)
      rw [pair_touches _ _ _ _ _ _ h3 j (by omega) (by omega)]

/-- the diagnostic of one block of insertions, and the steps it leaves alone -/
theorem block {cap : Rat} {d : DiagParam} {a b c : Nat} {prog : List Instr} {p p' : List Step}
    (hp : insertHppc b cap d = .ok prog) (h : run (insertReset a cap d ++ prog ++ insertRpt c cap d) p = .ok p')
    (hab : a + 1 < b) (hbc : b + 8 < c) :
    Diagnostic cap d p' a b c ∧ ∀ j, j < a ∨ c + 7 < j → p'[j]? = p[j]? := by
  obtain ⟨q2, h12, h3⟩ := run_append h
  obtain ⟨q1, h1, h2⟩ := run_append h12
  have t1 := (C66_diagnostic_cycles a cap d p q1).1 h1
  have t2 := (C66_diagnostic_cycles b cap d q1 q2).2.1 _ hp h2
  have t3 := (C66_diagnostic_cycles c cap d q2 p').2.2 h3
  have u1 : ∀ j, j < a ∨ a + 1 < j → q1[j]? = p[j]? := fun j hj => t1.2 j (by omega)
  have u2 : ∀ j, j < b ∨ b + 8 < j → q2[j]? = q1[j]? := fun j hj => t2.2 j (by omega)
  have u3 : ∀ j, j < c ∨ c + 7 < j → p'[j]? = q2[j]? := fun j hj => t3.2 j (by omega)
  refine ⟨⟨reset_of (fun j x y => ?_) ((C69_diagnostic a cap d p q1).1 h1),
    hppc_of (fun j x y => ?_) ((C69_diagnostic b cap d q1 q2).2.1 _ hp h2), (C69_diagnostic c cap d q2 p').2.2 h3⟩, ?_⟩
  · rw [u3 j (by omega), u2 j (by omega)]
  · rw [u3 j (by omega)]
  · intro j hj
    rw [u3 j (by omega), u2 j (by omega), u1 j (by omega)]

/-- C69: `add_procedure_diagcyclev2` puts both diagnostics in place; it leaves the regular cycles (28 to
35) between them alone, and everything after -/
theorem C69_diagnosticsV2 (cap : Rat) (d : DiagParam) (prog : List Instr) (p p' : List Step)
    (hp : diagCycleV2 cap d = .ok prog) (h : run prog p = .ok p') :
    Diagnostic cap d p' 4 8 18 ∧ Diagnostic cap d p' 37 40 50 ∧
    ∀ j, j < 4 ∨ (26 ≤ j ∧ j < 37) ∨ 58 ≤ j → p'[j]? = p[j]? := by
  simp only [diagCycleV2, bind, Except.bind] at hp
  split at hp
  · cases hp
  rename_i h₁ hh₁
  split at hp
  · cases hp
  rename_i h₂ hh₂
  cases hp
  rw [show insertReset 4 cap d ++ h₁ ++ insertRpt 18 cap d ++ insertReset 37 cap d ++ h₂ ++ insertRpt 50 cap d =
    (insertReset 4 cap d ++ h₁ ++ insertRpt 18 cap d) ++ (insertReset 37 cap d ++ h₂ ++ insertRpt 50 cap d) by
      simp only [List.append_assoc]] at h
  obtain ⟨q, ha, hb⟩ := run_append h
  obtain ⟨a1, a2⟩ := block hh₁ ha (by decide) (by decide)
  obtain ⟨b1, b2⟩ := block hh₂ hb (by decide) (by decide)
  refine ⟨diagnostic_of (fun j hj => b2 j (by omega)) a1, b1, ?_⟩
  intro j hj
  rw [b2 j (by omega), a2 j (by omega)]

/-- C69: `generate_procedure_diagcyclev3` puts the three diagnostics in place; it leaves the regular
cycles (28 to 35, 60 to 67) and the storage (93, 94) alone -/
theorem C69_diagnosticsV3 (cap : Rat) (d : DiagParam) (prog : List Instr) (p p' : List Step)
    (hp : diagCycleV3 cap d = .ok prog) (h : run prog p = .ok p') :
    Diagnostic cap d p' 4 8 18 ∧ Diagnostic cap d p' 37 40 50 ∧ Diagnostic cap d p' 70 74 84 ∧
    ∀ j, j < 4 ∨ (26 ≤ j ∧ j < 37) ∨ (58 ≤ j ∧ j < 70) ∨ 92 ≤ j → p'[j]? = p[j]? := by
  simp only [diagCycleV3, bind, Except.bind] at hp
  split at hp
  · cases hp
  rename_i a ha
  split at hp
  · cases hp
  rename_i h₃ hh₃
  cases hp
  rw [show a ++ insertReset 70 cap d ++ h₃ ++ insertRpt 84 cap d =
    a ++ (insertReset 70 cap d ++ h₃ ++ insertRpt 84 cap d) by simp only [List.append_assoc]] at h
  obtain ⟨q, hq, hb⟩ := run_append h
  obtain ⟨a1, a2, a3⟩ := C69_diagnosticsV2 cap d a p q ha hq
  obtain ⟨b1, b2⟩ := block hh₃ hb (by decide) (by decide)
  refine ⟨diagnostic_of (fun j hj => b2 j (by omega)) a1, diagnostic_of (fun j hj => b2 j (by omega)) a2, b1, ?_⟩
  intro j hj
  rw [b2 j (by omega), a3 j (by omega)]

/-- the parts of the regular cycles, with the steps each leaves alone -/
theorem regular_block {i : Nat} {r : RegParam} {c : List Instr} {p p' : List Step} (hc : insertChargeV3 i r = .ok c)
    (h : run (c ++ insertDischarge (i + 4) r) p = .ok p') :
    ChargeV3 r p' i ∧ Discharge r p' (i + 4) ∧ ∀ j, j < i ∨ i + 7 < j → p'[j]? = p[j]? := by
  obtain ⟨q, h1, h2⟩ := run_append h
  have t1 := (C66_regular_cycle i r p q).2.1 _ hc h1
  have t2 := (C66_regular_cycle (i + 4) r q p').2.2.1 h2
  have u1 : ∀ j, j < i ∨ i + 3 < j → q[j]? = p[j]? := fun j hj => t1.2 j (by omega)
  have u2 : ∀ j, j < i + 4 ∨ i + 7 < j → p'[j]? = q[j]? := fun j hj => t2.2 j (by omega)
  refine ⟨chargeV3_of (fun j a b => u2 j (by omega)) (C69_chargeV3 i r _ p q hc h1),
    (C69_regular (i + 4) r q p').2.1 h2, ?_⟩
  intro j hj
  rw [u2 j (by omega), u1 j (by omega)]

theorem regular_blockV2 {i : Nat} {r : RegParam} {c : List Instr} {p p' : List Step} (hc : insertChargeV2 i r = .ok c)
    (h : run (c ++ insertDischarge (i + 4) r) p = .ok p') :
    Charge r p' i ∧ Discharge r p' (i + 4) ∧ ∀ j, j < i ∨ i + 7 < j → p'[j]? = p[j]? := by
  obtain ⟨q, h1, h2⟩ := run_append h
  have t1 := (C66_regular_cycle i r p q).1 _ hc h1
  have t2 := (C66_regular_cycle (i + 4) r q p').2.2.1 h2
  have u1 : ∀ j, j < i ∨ i + 3 < j → q[j]? = p[j]? := fun j hj => t1.2 j (by omega)
  have u2 : ∀ j, j < i + 4 ∨ i + 7 < j → p'[j]? = q[j]? := fun j hj => t2.2 j (by omega)
  refine ⟨charge_of (fun j a b => u2 j (by omega)) (C69_chargeV2 i r _ p q hc h1),
    (C69_regular (i + 4) r q p').2.1 h2, ?_⟩
  intro j hj
  rw [u2 j (by omega), u1 j (by omega)]

/-- C69: the regular cycles of version 3 -/
theorem C69_procedureV3 (index : Int) (r : RegParam) (p p' : List Step) (h : regcycleV3 index r p = .ok p') :
    r.dischargeCutoffVoltage < r.chargeCutoffVoltage ∧ Resistance r p' 1 ∧
    ChargeV3 r p' 28 ∧ Discharge r p' 32 ∧ ChargeV3 r p' 60 ∧ Discharge r p' 64 ∧ Storage r p' 93 := by
  simp only [regcycleV3, bind, Except.bind] at h
  split at h
  · rename_i hv
    split at h
    · cases h
    rename_i c₁ hc₁
    split at h
    · cases h
    rename_i c₂ hc₂
    rw [show insertInitialRest 0 index ++ insertResistance 1 r ++ c₁ ++ insertDischarge 32 r ++ c₂ ++ insertDischarge 64 r ++
      insertStorage (.nth 0) 93 r = insertInitialRest 0 index ++ (insertResistance 1 r ++ ((c₁ ++ insertDischarge (28 + 4) r) ++
        ((c₂ ++ insertDischarge (60 + 4) r) ++ insertStorage (.nth 0) 93 r))) by simp only [List.append_assoc, Nat.reduceAdd]] at h
    obtain ⟨q0, -, h⟩ := run_append h
    obtain ⟨q1, h1, h⟩ := run_append h
    obtain ⟨q2, h2, h⟩ := run_append h
    obtain ⟨q3, h3, h4⟩ := run_append h
    obtain ⟨a1, a2, a3⟩ := regular_block hc₁ h2
    obtain ⟨b1, b2, b3⟩ := regular_block hc₂ h3
    have t4 : ∀ j, j < 93 → p'[j]? = q3[j]? := fun j hj => ((C66_regular_cycle 93 r q3 p').2.2.2.1 _ h4).2 j (by omega)
    refine ⟨hv, resistance_of ?_ ((C69_regular 1 r q0 q1).1 h1), chargeV3_of (fun j x y => ?_) a1, discharge_of (fun j x y => ?_) a2,
      chargeV3_of (fun j x y => t4 j (by omega)) b1, discharge_of (fun j x y => t4 j (by omega)) b2,
      (C69_regular 93 r q3 p').2.2 _ (.inr rfl) h4⟩
    · rw [t4 1 (by omega), b3 1 (by omega), a3 1 (by omega)]
    · rw [t4 j (by omega), b3 j (by omega)]
    · rw [t4 j (by omega), b3 j (by omega)]
  · cases h

/-- C69: the regular cycles of version 2 -/
theorem C69_procedureV2 (r : RegParam) (p p' : List Step) (h : regcycleV2 r p = .ok p') :
    r.dischargeCutoffVoltage < r.chargeCutoffVoltage ∧ Resistance r p' 1 ∧
    Charge r p' 28 ∧ Discharge r p' 32 ∧ Charge r p' 60 ∧ Discharge r p' 64 ∧ Storage r p' 69 := by
  simp only [regcycleV2, bind, Except.bind] at h
  split at h
  · rename_i hv
    split at h
    · cases h
    rename_i c₁ hc₁
    split at h
    · cases h
    rename_i c₂ hc₂
    rw [show insertResistance 1 r ++ c₁ ++ insertDischarge 32 r ++ c₂ ++ insertDischarge 64 r ++
      insertStorage .one 69 r = insertResistance 1 r ++ ((c₁ ++ insertDischarge (28 + 4) r) ++
        ((c₂ ++ insertDischarge (60 + 4) r) ++ insertStorage .one 69 r)) by simp only [List.append_assoc, Nat.reduceAdd]] at h
    obtain ⟨q1, h1, h⟩ := run_append h
    obtain ⟨q2, h2, h⟩ := run_append h
    obtain ⟨q3, h3, h4⟩ := run_append h
    obtain ⟨a1, a2, a3⟩ := regular_blockV2 hc₁ h2
    obtain ⟨b1, b2, b3⟩ := regular_blockV2 hc₂ h3
    have t4 : ∀ j, j < 69 → p'[j]? = q3[j]? := fun j hj => ((C66_regular_cycle 69 r q3 p').2.2.2.1 _ h4).2 j (by omega)
    refine ⟨hv, resistance_of ?_ ((C69_regular 1 r p q1).1 h1), charge_of (fun j x y => ?_) a1, discharge_of (fun j x y => ?_) a2,
      charge_of (fun j x y => t4 j (by omega)) b1, discharge_of (fun j x y => t4 j (by omega)) b2,
      (C69_regular 69 r q3 p').2.2 _ (.inl rfl) h4⟩
    · rw [t4 1 (by omega), b3 1 (by omega), a3 1 (by omega)]
    · rw [t4 j (by omega), b3 j (by omega)]
    · rw [t4 j (by omega), b3 j (by omega)]
  · cases h

/-- C69: a whole version 3 procedure, regular cycles and then diagnostics inserted -/
theorem C69_generated (index : Int) (r : RegParam) (cap : Rat) (d : DiagParam) (prog : List Instr) (p q p' : List Step)
    (h : regcycleV3 index r p = .ok q) (hp : diagCycleV3 cap d = .ok prog) (hd : run prog q = .ok p') :
    Resistance r p' 1 ∧ ChargeV3 r p' 28 ∧ Discharge r p' 32 ∧ ChargeV3 r p' 60 ∧ Discharge r p' 64 ∧ Storage r p' 93 ∧
    Diagnostic cap d p' 4 8 18 ∧ Diagnostic cap d p' 37 40 50 ∧ Diagnostic cap d p' 70 74 84 := by
  obtain ⟨-, a1, a2, a3, a4, a5, a6⟩ := C69_procedureV3 index r p q h
  obtain ⟨b1, b2, b3, b4⟩ := C69_diagnosticsV3 cap d prog q p' hp hd
  exact ⟨resistance_of (b4 1 (by omega)) a1, chargeV3_of (fun j x y => b4 j (by omega)) a2, discharge_of (fun j x y => b4 j (by omega)) a3,
    chargeV3_of (fun j x y => b4 j (by omega)) a4, discharge_of (fun j x y => b4 j (by omega)) a5,
    storage_of (fun j x y => b4 j (by omega)) a6, b1, b2, b3⟩

/-! ### non-vacuity -/

/-- a procedure with the steps of the template of version 3 -/
def template : List Step :=
  let e (t : String) : EndE := ⟨none, t.toList, some "=".toList, "002".toList, .text "00:00:00".toList⟩
  let s (ty mode : String) (es : List String) : Step :=
    ⟨ty.toList, some mode.toList, .null, some [], some (.many (es.map e)), none, []⟩
  let charge := s "Charge" "Current" ["Current"]
  let discharge := s "Dischrge" "Current" ["Voltage"]
  let rest := s "Rest" "" ["StepTime"]
  let reset := [charge, discharge]
  let hppc := [charge, rest, rest, s "Dischrge" "Current" ["StepTime", "Voltage"], rest, s "Charge" "Current" ["StepTime", "Voltage"],
    s "Dischrge" "Current" ["StepTime", "Voltage"], rest, s "Dischrge" "Voltage" ["Current"]]
  let rpt := [charge, discharge, rest, charge, discharge, rest, charge, discharge]
  let regular (l : String) := [s "Charge" "Current" ["StepTime", "Voltage"], s "Charge" "Current" ["Voltage"], s "Charge" "Voltage" ["StepTime"],
    rest, discharge, rest, rest, { s l "" [] with ends := some (.one (e "Loop Cnt")) }]
  [rest, charge, rest, rest] ++ reset ++ [rest, rest] ++ hppc ++ [rest] ++ rpt ++ [rest, rest] ++ regular "Loop 1" ++ [rest] ++
    reset ++ [rest] ++ hppc ++ [rest] ++ rpt ++ [rest, rest] ++ regular "Loop 2" ++ [rest, rest] ++
    reset ++ [rest, rest] ++ hppc ++ [rest] ++ rpt ++ [rest, discharge |> fun d => { d with ends := some (.many [e "Current"]) },
      s "Charge" "Current" ["StepTime"]]

def diag : DiagParam where
  resetCurrent := 1 / 20
  resetCutoffCurrent := 1 / 50
  chargeCutoffVoltage := 44 / 10
  dischargeCutoffVoltage := 3
  cutoffCurrent := 1 / 20
  hppcBaseline := 1 / 2
  hppcRestTime := 60
  hppcPulse1 := 1
  hppcDuration1 := 40
  hppcPulseRest := 40
  hppcPulse2 := 3 / 4
  hppcDuration2 := 10
  hppcPulseCutoff := 44 / 10
  hppcInterval := 10
  rptCharge := 1
  rptDischarge1 := 1 / 5
  rptDischarge2 := 1
  rptDischarge3 := 2

/-- a whole procedure of version 3 -/
def generated : Option (List Step) :=
  match regcycleV3 7 (params 15) template with
  | .ok q => match diagCycleV3 (48 / 10) diag with
    | .ok prog => match run prog q with
      | .ok p => some p
      | .error _ => none
    | .error _ => none
  | .error _ => none

def commanded (p : List Step) (i : Nat) : Rat :=
  match p[i]?.map Step.stepValue with
  | some (.num q) => q
  | _ => 0

-- it is generated; some of its values
example : generated.map (fun p => [28, 32, 64, 93, 4, 13, 48, 91].map (commanded p)) =
    some [5, 5, 5, 5 / 2, 6 / 25, 18 / 5, 3, 48 / 5] := by decide +kernel

end Beep.Props.Inserted
