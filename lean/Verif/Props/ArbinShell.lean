import Verif.Proof.ArbinShell
/-
C149: the schedule made from a shell schedule and a list of compiled steps.
-/
namespace Beep.Props.ArbinShell
open Beep Beep.Dash Beep.Arbin Beep.Spec.Dash Beep.Spec.ArbinShell Beep.Proof.ArbinShell
open Beep.Props.Dash

/-- C149: a schedule is made exactly when the shell has a section "Schedule". -/
theorem C149_made (shell : Obj) (steps : List Obj) (v t c : Rat × Rat) (hd : Distinct shell) :
    (∃ out, createSchedule shell steps v t c = .ok out) ↔ ∃ s, shell.find "Schedule".toList = some (.obj s) := by
  constructor
  · rintro ⟨out, h⟩
    unfold createSchedule at h
    split at h
    · rename_i s e; exact ⟨s, e⟩
    · cases h
    · cases h
  · rintro ⟨s, h⟩
    obtain ⟨out, _, e, _⟩ := create_ok shell s steps v t c hd h
    exact ⟨out, e⟩

/-- C149: step `i` of the schedule is step `i` of the procedure, no other step is left, and the
number of steps is recorded. -/
theorem C149_steps (shell : Obj) (steps : List Obj) (v t c : Rat × Rat) (out : Obj) (hd : Distinct shell)
    (h : createSchedule shell steps v t c = .ok out) :
    ∃ u, out.find "Schedule".toList = some (.obj u) ∧
      (∀ i (hi : i < steps.length), u.find (StepNo i) = some (.obj steps[i])) ∧
      (∀ k, IsStep k → k ∈ u.keys → ∃ i, i < steps.length ∧ k = StepNo i) ∧
      u.find "m_uStepNum".toList = some (.str (toString steps.length).toList) := by
  obtain ⟨s, hs⟩ := (C149_made shell steps v t c hd).mp ⟨out, h⟩
  obtain ⟨out', u, e, hu, ⟨s', saved, rfl, hk, hf, hsk, hsf⟩, _, _⟩ := create_ok shell s steps v t c hd hs
  rw [e] at h
  cases h
  have hstep : ∀ k, IsStep k → k ∉ saved.map Prod.fst := by
    intro k h1 h2
    rw [hsk] at h2
    exact step_not_safety k h1 ((startsNumbered_iff "UserDefineSafety" k).mp (List.mem_filter.mp h2).2)
  refine ⟨_, hu, ?_, ?_, ?_⟩
  · intro i hi
    rw [putAll_find_not _ _ _ (hstep _ (stepNo_isStep i))]
    have := numbered_mem 0 i steps hi
    rw [Nat.zero_add] at this
    exact putAll_find _ _ (numbered_nodup 0 steps) _ this
  · intro k h1 hm
    rw [putAll_mem, putAll_mem, putAll_mem] at hm
    rcases hm with ((hm | hm) | hm) | hm
    · rw [hk, List.mem_filter] at hm
      have := (gone_iff k).mpr (.inl h1)
      rw [this] at hm
      exact absurd hm.2 (by decide)
    · exact absurd h1 (header_not _ _ _ _ k hm).1
    · rw [numbered_keys, List.mem_map] at hm
      obtain ⟨i, hi, rfl⟩ := hm
      rw [List.mem_range'_1] at hi
      exact ⟨i, by omega, rfl⟩
    · exact absurd hm (hstep k h1)
  · have h0 : "m_uStepNum".toList ∈ (header steps.length v t c).map Prod.fst := by
      rw [header_keys]; exact List.mem_append_left _ List.mem_cons_self
    have hn := header_not _ _ _ _ _ h0
    rw [putAll_find_not, putAll_find_not]
    · have := putAll_find s' (header steps.length v t c) (header_nodup _ _ _ _) _ List.mem_cons_self
      rw [this]
      have e : (toString steps.length : String).toList = Nat.toDigits 10 steps.length := String.toList_ofList
      rw [e]
    · rw [numbered_keys]
      intro hm
      obtain ⟨i, _, hi⟩ := List.mem_map.mp hm
      exact hn.1 (hi ▸ stepNo_isStep i)
    · rw [hsk]
      exact fun hm => hn.2 ((startsNumbered_iff "UserDefineSafety" _).mp (List.mem_filter.mp hm).2)

/-- C149: everything else is as in the shell: other sections, the safety sections, and the entries
other than the number of steps and the safety ranges. -/
theorem C149_kept (shell s : Obj) (steps : List Obj) (v t c : Rat × Rat) (out : Obj) (hd : Distinct shell)
    (hs : shell.find "Schedule".toList = some (.obj s)) (h : createSchedule shell steps v t c = .ok out) :
    out.keys = shell.keys ∧ (∀ k, k ≠ "Schedule".toList → out.find k = shell.find k) ∧
    ∃ u, out.find "Schedule".toList = some (.obj u) ∧
      ∀ k, ¬ IsStep k → k ∉ settings → (k = enable → t = (-100, 100)) → u.find k = s.find k := by
  obtain ⟨out', u, e, hu, ⟨s', saved, rfl, hk, hf, hsk, hsf⟩, h1, h2⟩ := create_ok shell s steps v t c hd hs
  rw [e] at h
  cases h
  refine ⟨h1, h2, _, hu, ?_⟩
  intro k hk1 hk2 hk3
  have hnodup : (saved.map Prod.fst).Nodup := by
    rw [hsk]
    exact (nodup_keys s (distinct_sub shell _ s hd hs)).filter _
  by_cases hm : k ∈ saved.map Prod.fst
  · obtain ⟨a, ha, rfl⟩ := List.mem_map.mp hm
    rw [putAll_find _ _ hnodup a ha, hsf a ha]
  · rw [putAll_find_not _ _ _ hm, putAll_find_not, putAll_find_not, hf]
    · split
      · rename_i hg
        rcases (gone_iff k).mp hg with hg | hg
        · exact absurd hg hk1
        · symm
          rw [find_none]
          intro hc
          exact hm (by rw [hsk, List.mem_filter]; exact ⟨hc, (startsNumbered_iff "UserDefineSafety" k).mpr hg⟩)
      · rfl
    · rw [header_keys, List.mem_append, not_or]
      refine ⟨hk2, ?_⟩
      split
      · exact List.not_mem_nil
      · rename_i hc
        rw [List.mem_singleton]
        exact fun c => hc (hk3 c)
    · rw [numbered_keys]
      intro hm
      obtain ⟨i, _, hi⟩ := List.mem_map.mp hm
      exact hk1 (hi ▸ stepNo_isStep i)

/-- C149: the schedule carries the three safety ranges to six decimals, and the temperature limit
is turned on when a range other than the default is asked for. -/
theorem C149_limits (shell : Obj) (steps : List Obj) (v t c : Rat × Rat) (out : Obj) (hd : Distinct shell)
    (h : createSchedule shell steps v t c = .ok out) :
    ∃ u, out.find "Schedule".toList = some (.obj u) ∧
      (∃ x, u.find "m_VoltageSafetyScope".toList = some (.str x) ∧ Range x v) ∧
      (∃ x, u.find "m_AuxTempSafetyScope".toList = some (.str x) ∧ Range x t) ∧
      (∃ x, u.find "m_CurrentSafetyScope".toList = some (.str x) ∧ Range x c) ∧
      (t ≠ (-100, 100) → u.find enable =
        some (.str "0^0 ; 1^1 ; 2^0 ; 3^0 ; 4^0 ; 5^0 ; 6^0 ; 7^0 ; 8^0 ; 9^0 ; 10^0 ; 11^0".toList)) := by
  obtain ⟨s, hs⟩ := (C149_made shell steps v t c hd).mp ⟨out, h⟩
  obtain ⟨out', u, e, hu, ⟨s', saved, rfl, hk, hf, hsk, hsf⟩, _, _⟩ := create_ok shell s steps v t c hd hs
  rw [e] at h
  cases h
  have key : ∀ a ∈ header steps.length v t c,
      (putAll (putAll (putAll s' (header steps.length v t c)) (numbered 0 steps)) saved).find a.1 = some a.2 := by
    intro a ha
    have hn := header_not _ _ _ _ _ (List.mem_map_of_mem (f := Prod.fst) ha)
    rw [putAll_find_not, putAll_find_not]
    · exact putAll_find s' _ (header_nodup _ _ _ _) a ha
    · rw [numbered_keys]
      intro hm
      obtain ⟨i, _, hi⟩ := List.mem_map.mp hm
      exact hn.1 (hi ▸ stepNo_isStep i)
    · rw [hsk]
      exact fun hm => hn.2 ((startsNumbered_iff "UserDefineSafety" _).mp (List.mem_filter.mp hm).2)
  refine ⟨_, hu, ⟨scope v, ?_, scope_range v⟩, ⟨scope t, ?_, scope_range t⟩, ⟨scope c, ?_, scope_range c⟩, ?_⟩
  · exact key ("m_VoltageSafetyScope".toList, .str (scope v)) (List.mem_append_left _ (.tail _ (.head _)))
  · exact key ("m_AuxTempSafetyScope".toList, .str (scope t)) (List.mem_append_left _ (.tail _ (.tail _ (.head _))))
  · exact key ("m_CurrentSafetyScope".toList, .str (scope c))
      (List.mem_append_left _ (.tail _ (.tail _ (.tail _ (.head _)))))
  · intro ht
    refine key (enable, _) (List.mem_append_right _ ?_)
    rw [if_neg ht]
    exact List.mem_singleton.mpr rfl

/-- C149: the entries of the section come in this order: the entries that are neither steps nor
safety sections, the steps in the order of the procedure, the safety sections in the order of the
shell; no key occurs twice. -/
theorem C149_order (shell s : Obj) (steps : List Obj) (v t c : Rat × Rat) (out : Obj) (hd : Distinct shell)
    (hs : shell.find "Schedule".toList = some (.obj s)) (h : createSchedule shell steps v t c = .ok out) :
    ∃ u front back, out.find "Schedule".toList = some (.obj u) ∧
      u.keys = front ++ (List.range steps.length).map StepNo ++ back ∧ u.keys.Nodup ∧
      (∀ k ∈ front, ¬ IsStep k ∧ ¬ IsSafety k) ∧
      List.Sublist back s.keys ∧ (∀ k, k ∈ back ↔ k ∈ s.keys ∧ IsSafety k) := by
  obtain ⟨out', u, e, hu, ⟨s', saved, rfl, hk, hf, hsk, hsf⟩, h1, h2⟩ := create_ok shell s steps v t c hd hs
  rw [e] at h
  cases h
  have hns := nodup_keys s (distinct_sub shell _ s hd hs)
  have hfront : ∀ k ∈ (putAll s' (header steps.length v t c)).keys, ¬ IsStep k ∧ ¬ IsSafety k := by
    intro k hm
    rw [putAll_mem] at hm
    rcases hm with hm | hm
    · rw [hk, List.mem_filter] at hm
      have : gone k ≠ true := by simpa using hm.2
      rw [Ne, gone_iff, not_or] at this
      exact this
    · exact header_not _ _ _ _ k hm
  have k1 : (putAll (putAll s' (header steps.length v t c)) (numbered 0 steps)).keys =
      (putAll s' (header steps.length v t c)).keys ++ (List.range steps.length).map StepNo := by
    rw [putAll_keys _ _ (numbered_nodup 0 steps), numbered_keys, List.range_eq_range']
    intro x hx hc
    rw [numbered_keys] at hx
    obtain ⟨i, _, rfl⟩ := List.mem_map.mp hx
    exact (hfront _ hc).1 (stepNo_isStep i)
  have hsaf : ∀ k ∈ saved.map Prod.fst, IsSafety k := by
    intro k hm
    rw [hsk] at hm
    exact (startsNumbered_iff "UserDefineSafety" k).mp (List.mem_filter.mp hm).2
  have hnsaved : (saved.map Prod.fst).Nodup := by rw [hsk]; exact hns.filter _
  refine ⟨_, _, saved.map Prod.fst, hu, ?_, ?_, hfront, ?_, ?_⟩
  · rw [putAll_keys _ _ hnsaved, k1]
    intro x hx hc
    rw [k1, List.mem_append] at hc
    rcases hc with hc | hc
    · exact (hfront x hc).2 (hsaf x hx)
    · obtain ⟨i, _, rfl⟩ := List.mem_map.mp hc
      exact step_not_safety _ (stepNo_isStep i) (hsaf _ hx)
  · apply putAll_nodup
    apply putAll_nodup
    apply putAll_nodup
    rw [hk]
    exact hns.filter _
  · rw [hsk]
    exact List.filter_sublist
  · intro k
    rw [hsk, List.mem_filter]
    exact and_congr_right fun _ => startsNumbered_iff "UserDefineSafety" k

/-- a shell with two steps, a safety section and other entries -/
def shell : Obj :=
  .node "Signature".toList (.leaf "a".toList "1".toList .nil)
    (.node "Schedule".toList
      (.leaf "m_uStepNum".toList "2".toList
        (.node "Step0".toList (.leaf "m_szLabel".toList "Old".toList .nil)
          (.node "UserDefineSafety0".toList (.leaf "m_b".toList "1".toList .nil)
            (.node "Step1".toList .nil (.leaf "m_szComment".toList "x".toList .nil)))))
      .nil)

/-- the shell meets the hypotheses, and the result is as described -/
example : Distinct shell ∧ (∃ s, shell.find "Schedule".toList = some (.obj s)) := by
  refine ⟨?_, _, rfl⟩
  simp [shell, Distinct, Obj.keys]

example : createSchedule shell [.leaf "m_szLabel".toList "New".toList .nil] (5 / 2, 9 / 2) (-100, 100) (-30, 30) =
    .ok (.node "Signature".toList (.leaf "a".toList "1".toList .nil)
      (.node "Schedule".toList
        (.leaf "m_uStepNum".toList "1".toList
          (.leaf "m_szComment".toList "x".toList
            (.leaf "m_VoltageSafetyScope".toList "2.500000^4.500000".toList
              (.leaf "m_AuxTempSafetyScope".toList "-100.000000^100.000000".toList
                (.leaf "m_CurrentSafetyScope".toList "-30.000000^30.000000".toList
                  (.node "Step0".toList (.leaf "m_szLabel".toList "New".toList .nil)
                    (.node "UserDefineSafety0".toList (.leaf "m_b".toList "1".toList .nil) .nil)))))))
        .nil)) := by decide +kernel

end Beep.Props.ArbinShell
