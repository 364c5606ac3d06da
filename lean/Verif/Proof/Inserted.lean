import Verif.Spec.Inserted
import Verif.Proof.MaccorProcedure
import Verif.Proof.Py
/-
What a run of insert statements leaves in the procedure.
-/
namespace Beep.Proof.Inserted
open Beep MaccorProcedure Spec.MaccorProcedure Spec.Inserted Proof.MaccorProcedure

/-- a place that holds one value -/
inductive Slot where
  | value (i : Nat)
  | limit (i : Nat) (key : Str)
  | ending (i : Nat) (k : Sel)
  deriving DecidableEq

/-- the place a statement assigns -/
def writes : Instr → Option Slot
  | .setValue i _ => some (.value i)
  | .setLimit i key _ => some (.limit i key)
  | .setEnd i k _ => some (.ending i k)
  | .loopCnt i _ _ => some (.ending i .one)
  | _ => none

/-- the value a statement assigns -/
def writtenVal : Instr → Option Val
  | .setValue _ v => some v
  | .setLimit _ _ v => some v
  | .setEnd _ _ v => some v
  | _ => none

/-- the end entry of the step -/
def endOf (s : Step) : Sel → Option EndE
  | .one => match s.ends with
    | some (.one e) => some e
    | _ => none
  | .nth k => match s.ends with
    | some (.many es) => es[k]?
    | _ => none

/-- the value in a place -/
def read (p : List Step) : Slot → Option Val
  | .value i => p[i]?.map Step.stepValue
  | .limit i key => p[i]?.bind (fun s => s.limits.bind (fun l => Dict.get? l key))
  | .ending i k => p[i]?.bind (fun s => (endOf s k).map EndE.value)

theorem endOf_endAt {s : Step} {k : Sel} {e : EndE} (h : endAt s k = .ok e) : endOf s k = some e := by
  cases k with
  | one =>
    simp only [endAt] at h
    simp only [endOf]
    split at h <;> cases h
    rename_i h; rw [h]
  | nth k =>
    simp only [endAt] at h
    simp only [endOf]
    split at h
    · cases h
    · cases h
    · rename_i es hes
      rw [hes]
      split at h
      · rename_i e' he; cases h; exact he
      · cases h

theorem endOf_putEnd (s : Step) (v : Val) (k k' : Sel) :
    endOf (putEnd s v k) k' = if k' = k then (endOf s k).map (fun e => { e with value := v }) else endOf s k' := by
  obtain ⟨a, b, c, d, ends, f, g⟩ := s
  cases k with
  | one =>
    cases k' with
    | one => rcases ends with - | ⟨e⟩ | ⟨es⟩ <;> rfl
    | nth k' => rcases ends with - | ⟨e⟩ | ⟨es⟩ <;> rfl
  | nth k =>
    cases k' with
    | one => rcases ends with - | ⟨e⟩ | ⟨es⟩ <;> rfl
    | nth k' =>
      rcases ends with - | ⟨e⟩ | ⟨es⟩
      · by_cases hk : k' = k <;> simp [hk, endOf, putEnd]
      · by_cases hk : k' = k <;> simp [hk, endOf, putEnd]
      · by_cases hk : k' = k
        · subst hk
          simp only [endOf, putEnd, if_true, List.getElem?_modify]
          simp
        · rw [if_neg (fun h => hk (Sel.nth.inj h))]
          simp only [endOf, putEnd, List.getElem?_modify]
          have hk' : ¬ k = k' := fun h => hk h.symm
          simp [hk']

theorem putEnd_value (s : Step) (v : Val) (k : Sel) : (putEnd s v k).stepValue = s.stepValue := by
  cases k <;> simp only [putEnd] <;> split <;> rfl

theorem putEnd_limits (s : Step) (v : Val) (k : Sel) : (putEnd s v k).limits = s.limits := by
  cases k <;> simp only [putEnd] <;> split <;> rfl

/-- an end value assigned -/
theorem read_putEnd {p : List Step} {i : Nat} {s : Step} (hs : p[i]? = some s) (v : Val) (k : Sel) (sl : Slot)
    (h : sl ≠ .ending i k) : read (p.set i (putEnd s v k)) sl = read p sl := by
  have hlt : i < p.length := (List.getElem?_eq_some_iff.mp hs).1
  cases sl with
  | value j =>
    by_cases hj : i = j
    · subst hj; simp only [read, List.getElem?_set_self hlt, hs]; simp [putEnd_value]
    · simp [read, hj]
  | limit j key =>
    by_cases hj : i = j
    · subst hj; simp only [read, List.getElem?_set_self hlt, hs]; simp [putEnd_limits]
    · simp [read, hj]
  | ending j k' =>
    by_cases hj : i = j
    · subst hj
      have : k' ≠ k := fun hk => h (by rw [hk])
      simp only [read, List.getElem?_set_self hlt, hs]
      simp [endOf_putEnd, this]
    · simp [read, hj]

theorem exec_other {p p' : List Step} {c : Instr} {sl : Slot} (h : exec p c = .ok p') (hw : writes c ≠ some sl) :
    read p' sl = read p sl := by
  cases c with
  | isType i t =>
    simp only [exec, bind, Except.bind] at h
    split at h
    · cases h
    · split at h <;> cases h; rfl
  | isMode i t =>
    simp only [exec, bind, Except.bind] at h
    split at h
    · cases h
    · split at h <;> cases h; rfl
  | endIs i k t =>
    simp only [exec, bind, Except.bind] at h
    split at h
    · cases h
    · split at h
      · cases h
      · split at h <;> cases h; rfl
  | endNe i k v =>
    simp only [exec, bind, Except.bind] at h
    split at h
    · cases h
    · split at h
      · cases h
      · split at h <;> cases h; rfl
  | setValue i v =>
    simp only [exec, bind, Except.bind] at h
    split at h
    · cases h
    · rename_i s hs
      cases h
      have hs' := stepAt_ok hs
      have hlt : i < p.length := (List.getElem?_eq_some_iff.mp hs').1
      have hne : sl ≠ .value i := fun hc => hw (by rw [hc]; rfl)
      cases sl with
      | value j =>
        have : i ≠ j := fun hj => hne (by rw [hj])
        simp [read, this]
      | limit j key =>
        by_cases hj : i = j
        · subst hj; simp only [read, List.getElem?_set_self hlt, hs']; simp
        · simp [read, hj]
      | ending j k =>
        by_cases hj : i = j
        · subst hj; simp only [read, List.getElem?_set_self hlt, hs']; cases k <;> rfl
        · simp [read, hj]
  | setLimit i key v =>
    simp only [exec, bind, Except.bind] at h
    split at h
    · cases h
    · rename_i s hs
      split at h
      · cases h
      · rename_i l hl
        cases h
        have hs' := stepAt_ok hs
        have hlt : i < p.length := (List.getElem?_eq_some_iff.mp hs').1
        have hne : sl ≠ .limit i key := fun hc => hw (by rw [hc]; rfl)
        cases sl with
        | value j =>
          by_cases hj : i = j
          · subst hj; simp only [read, List.getElem?_set_self hlt, hs']; simp
          · simp [read, hj]
        | limit j key' =>
          by_cases hj : i = j
          · subst hj
            have : key' ≠ key := fun hk => hne (by rw [hk])
            simp only [read, List.getElem?_set_self hlt, hs']
            simp [hl, Dict.get?_set_ne _ _ this]
          · simp [read, hj]
        | ending j k =>
          by_cases hj : i = j
          · subst hj; simp only [read, List.getElem?_set_self hlt, hs']; cases k <;> rfl
          · simp [read, hj]
  | setEnd i k v =>
    simp only [exec, bind, Except.bind] at h
    split at h
    · cases h
    · rename_i s hs
      split at h
      · cases h
      · cases h
        exact read_putEnd (stepAt_ok hs) v k sl (fun hc => hw (by rw [hc]; rfl))
  | loopCnt i v₁ v₂ =>
    have hne : sl ≠ .ending i .one := fun hc => hw (by rw [hc]; rfl)
    simp only [exec, bind, Except.bind] at h
    split at h
    · cases h
    · rename_i s hs
      split at h
      · split at h
        · split at h
          · cases h
          · split at h <;> cases h
            exact read_putEnd (stepAt_ok hs) v₁ .one sl hne
        · split at h
          · split at h
            · cases h
            · split at h <;> cases h
              exact read_putEnd (stepAt_ok hs) v₂ .one sl hne
          · cases h; rfl
      · cases h

theorem exec_self {p p' : List Step} {c : Instr} {sl : Slot} {v : Val} (h : exec p c = .ok p')
    (hw : writes c = some sl) (hv : writtenVal c = some v) : read p' sl = some v := by
  cases c with
  | setValue i w =>
    cases hw; cases hv
    simp only [exec, bind, Except.bind] at h
    split at h
    · cases h
    · rename_i s hs
      cases h
      have hlt : i < p.length := (List.getElem?_eq_some_iff.mp (stepAt_ok hs)).1
      simp [read, hlt]
  | setLimit i key w =>
    cases hw; cases hv
    simp only [exec, bind, Except.bind] at h
    split at h
    · cases h
    · rename_i s hs
      split at h
      · cases h
      · cases h
        have hlt : i < p.length := (List.getElem?_eq_some_iff.mp (stepAt_ok hs)).1
        simp [read, hlt, Dict.get?_set_self]
  | setEnd i k w =>
    cases hw; cases hv
    simp only [exec, bind, Except.bind] at h
    split at h
    · cases h
    · rename_i s hs
      split at h
      · cases h
      · rename_i e he
        cases h
        have hlt : i < p.length := (List.getElem?_eq_some_iff.mp (stepAt_ok hs)).1
        simp [read, hlt, endOf_putEnd, endOf_endAt he]
  | isType => cases hw
  | isMode => cases hw
  | endIs => cases hw
  | endNe => cases hw
  | loopCnt => cases hv

/-- the last statement assigning a place -/
def lastWrite (sl : Slot) : List Instr → Option Instr
  | [] => none
  | c :: cs => match lastWrite sl cs with
    | some w => some w
    | none => if writes c = some sl then some c else none

theorem run_other {cs : List Instr} {p p' : List Step} {sl : Slot} (h : run cs p = .ok p')
    (hl : lastWrite sl cs = none) : read p' sl = read p sl := by
  induction cs generalizing p with
  | nil => cases h; rfl
  | cons c cs ih =>
    obtain ⟨q, hq, hr⟩ := run_cons h
    simp only [lastWrite] at hl
    split at hl
    · cases hl
    · rename_i hn
      split at hl
      · cases hl
      · rename_i hw
        rw [ih hr hn, exec_other hq hw]

theorem run_written {cs : List Instr} {p p' : List Step} {sl : Slot} {c : Instr} {v : Val} (h : run cs p = .ok p')
    (hl : lastWrite sl cs = some c) (hv : writtenVal c = some v) : read p' sl = some v := by
  induction cs generalizing p with
  | nil => cases hl
  | cons c' cs ih =>
    obtain ⟨q, hq, hr⟩ := run_cons h
    simp only [lastWrite] at hl
    split at hl
    · rename_i w hw
      cases hl
      exact ih hr hw
    · rename_i hn
      split at hl
      · rename_i hw
        cases hl
        rw [run_other hr hn, exec_self hq hw hv]
      · cases hl

/-- an assertion about the kind of a step holds in the result -/
theorem run_isType {cs : List Instr} {p p' : List Step} {i : Nat} {t : Str} (h : run cs p = .ok p')
    (hc : Instr.isType i t ∈ cs) : ∃ s, p'[i]? = some s ∧ s.stepType = t := by
  induction cs generalizing p with
  | nil => cases hc
  | cons c cs ih =>
    obtain ⟨q, hq, hr⟩ := run_cons h
    rcases List.mem_cons.mp hc with rfl | hc'
    · simp only [exec, bind, Except.bind] at hq
      split at hq
      · cases hq
      · rename_i s hs
        split at hq <;> cases hq
        rename_i ht
        have hs' := stepAt_ok hs
        have hlen := (run_only hr).1.length_eq
        have hlt : i < p'.length := by
          rw [← hlen]; exact (List.getElem?_eq_some_iff.mp hs').1
        obtain ⟨s0, h0, hss⟩ := forall₂_getElem? (run_only hr).1 (List.getElem?_eq_getElem hlt)
        rw [hs'] at h0
        cases h0
        exact ⟨_, List.getElem?_eq_getElem hlt, hss.1.trans ht⟩
    · exact ih hr hc'

theorem run_isMode {cs : List Instr} {p p' : List Step} {i : Nat} {t : Str} (h : run cs p = .ok p')
    (hc : Instr.isMode i t ∈ cs) : ∃ s, p'[i]? = some s ∧ s.stepMode = some t := by
  induction cs generalizing p with
  | nil => cases hc
  | cons c cs ih =>
    obtain ⟨q, hq, hr⟩ := run_cons h
    rcases List.mem_cons.mp hc with rfl | hc'
    · simp only [exec, bind, Except.bind] at hq
      split at hq
      · cases hq
      · rename_i s hs
        split at hq <;> cases hq
        rename_i ht
        have hs' := stepAt_ok hs
        have hlen := (run_only hr).1.length_eq
        have hlt : i < p'.length := by
          rw [← hlen]; exact (List.getElem?_eq_some_iff.mp hs').1
        obtain ⟨s0, h0, hss⟩ := forall₂_getElem? (run_only hr).1 (List.getElem?_eq_getElem hlt)
        rw [hs'] at h0
        cases h0
        exact ⟨_, List.getElem?_eq_getElem hlt, hss.2.1.trans ht⟩
    · exact ih hr hc'

/-- where `endOf` looks among the entries -/
def ord : Sel → Nat
  | .one => 0
  | .nth k => k

theorem entries_of {s : Step} {k : Sel} {e : EndE} (h : endOf s k = some e) : (entries s.ends)[ord k]? = some e := by
  cases k with
  | one =>
    simp only [endOf] at h
    split at h <;> cases h
    rename_i h; rw [h]; rfl
  | nth k =>
    simp only [endOf] at h
    split at h
    · rename_i h'; rw [h']; exact h
    · cases h

theorem endOf_same {s s' : Step} {k : Sel} {e : EndE} (hs : SameStructure s s') (h : endOf s k = some e) :
    ∃ e', endOf s' k = some e' ∧ e'.endType = e.endType := by
  have h5 := hs.2.2.2.2.1
  cases k with
  | one =>
    simp only [endOf] at h ⊢
    split at h <;> cases h
    rename_i h
    rw [h] at h5
    cases hx : s'.ends with
    | none => rw [hx] at h5; exact h5.elim
    | some x => cases x with
      | one e' => rw [hx] at h5; exact ⟨e', rfl, h5.2.1⟩
      | many es => rw [hx] at h5; exact h5.elim
  | nth k =>
    simp only [endOf] at h ⊢
    split at h
    · rename_i es hes
      rw [hes] at h5
      cases hx : s'.ends with
      | none => rw [hx] at h5; exact h5.elim
      | some x => cases x with
        | one e' => rw [hx] at h5; exact h5.elim
        | many es' =>
          rw [hx] at h5
          have hlen := List.Forall₂.length_eq h5
          have hlt : k < es'.length := by rw [← hlen]; exact (List.getElem?_eq_some_iff.mp h).1
          obtain ⟨e0, h0, hss⟩ := forall₂_getElem? h5 (List.getElem?_eq_getElem hlt)
          rw [h] at h0
          cases h0
          exact ⟨_, List.getElem?_eq_getElem hlt, hss.2.1⟩
    · cases h

theorem run_endType {cs : List Instr} {p p' : List Step} {i : Nat} {k : Sel} {t : Str} (h : run cs p = .ok p')
    (hc : Instr.endIs i k t ∈ cs) : ∃ s e, p'[i]? = some s ∧ endOf s k = some e ∧ e.endType = t := by
  induction cs generalizing p with
  | nil => cases hc
  | cons c cs ih =>
    obtain ⟨q, hq, hr⟩ := run_cons h
    rcases List.mem_cons.mp hc with rfl | hc'
    · simp only [exec, bind, Except.bind] at hq
      split at hq
      · cases hq
      · rename_i s hs
        split at hq
        · cases hq
        · rename_i e he
          split at hq <;> cases hq
          rename_i ht
          have hs' := stepAt_ok hs
          have hlen := (run_only hr).1.length_eq
          have hlt : i < p'.length := by
            rw [← hlen]; exact (List.getElem?_eq_some_iff.mp hs').1
          obtain ⟨s0, h0, hss⟩ := forall₂_getElem? (run_only hr).1 (List.getElem?_eq_getElem hlt)
          rw [hs'] at h0
          cases h0
          obtain ⟨e', he', ht'⟩ := endOf_same hss (endOf_endAt he)
          exact ⟨_, e', List.getElem?_eq_getElem hlt, he', ht'.trans ht⟩
    · exact ih hr hc'

theorem near_round (k : Nat) (hk : 0 < k) (x : Rat) : Near k (.num (roundTo k x)) x := by
  have hk' : (k : Rat) ≠ 0 := by exact_mod_cast (Nat.pos_iff_ne_zero.mp hk)
  have hb := nearest_bounds (x * k)
  refine ⟨_, Pandas.roundEven (x * k), rfl, ?_, hb.1, hb.2⟩
  rw [roundTo, div_mul_cancel₀ _ hk']

theorem commands {cs : List Instr} {p p' : List Step} {i : Nat} {ty mode : String} {k : Nat} {x : Rat} {v : Val}
    {c : Instr} (h : run cs p = .ok p')
    (h1 : Instr.isType i ty.toList ∈ cs) (h2 : Instr.isMode i mode.toList ∈ cs)
    (h3 : lastWrite (.value i) cs = some c) (h4 : writtenVal c = some v) (h5 : Near k v x) : Commands p' i ty mode k x := by
  obtain ⟨s, hs, ht⟩ := run_isType h h1
  obtain ⟨s2, hs2, hm⟩ := run_isMode h h2
  rw [hs] at hs2; cases hs2
  have hv := run_written h h3 h4
  simp only [read, hs, Option.map_some, Option.some.injEq] at hv
  exact ⟨s, hs, ht, hm, hv ▸ h5⟩

theorem limited {cs : List Instr} {p p' : List Step} {i : Nat} {key : String} {k : Nat} {x : Rat} {v : Val}
    {c : Instr} (h : run cs p = .ok p')
    (h3 : lastWrite (.limit i key.toList) cs = some c) (h4 : writtenVal c = some v) (h5 : Near k v x) : Limited p' i key k x := by
  have hv := run_written h h3 h4
  simp only [read, Option.bind_eq_some_iff] at hv
  obtain ⟨s, hs, l, hl, hg⟩ := hv
  exact ⟨s, l, v, hs, hl, hg, h5⟩

theorem threshold {cs : List Instr} {p p' : List Step} {i : Nat} {sel : Sel} {k : Nat} {x : Rat} {v : Val}
    {c : Instr} (h : run cs p = .ok p')
    (h3 : lastWrite (.ending i sel) cs = some c) (h4 : writtenVal c = some v) (h5 : Near k v x) :
    Threshold p' i (ord sel) k x := by
  have hv := run_written h h3 h4
  simp only [read, Option.bind_eq_some_iff, Option.map_eq_some_iff] at hv
  obtain ⟨s, hs, e, he, hev⟩ := hv
  exact ⟨s, e, hs, entries_of he, hev ▸ h5⟩

theorem endsOn {cs : List Instr} {p p' : List Step} {i : Nat} {sel : Sel} {ty : String} {k : Nat} {x : Rat} {v : Val}
    {c : Instr} (h : run cs p = .ok p') (h1 : Instr.endIs i sel ty.toList ∈ cs)
    (h3 : lastWrite (.ending i sel) cs = some c) (h4 : writtenVal c = some v) (h5 : Near k v x) :
    EndsOn p' i (ord sel) ty k x := by
  have hv := run_written h h3 h4
  simp only [read, Option.bind_eq_some_iff, Option.map_eq_some_iff] at hv
  obtain ⟨s, hs, e, he, hev⟩ := hv
  obtain ⟨s2, e2, hs2, he2, ht⟩ := run_endType h h1
  rw [hs] at hs2; cases hs2
  rw [he] at he2; cases he2
  exact ⟨s, e, hs, entries_of he, ht, hev ▸ h5⟩

theorem timed {cs : List Instr} {p p' : List Step} {i : Nat} (h : run cs p = .ok p')
    (h1 : Instr.endIs i (.nth 0) "StepTime".toList ∈ cs) : Timed p' i := by
  obtain ⟨s2, e2, hs2, he2, ht⟩ := run_endType h h1
  exact ⟨s2, e2, hs2, entries_of he2, ht⟩

theorem rests {cs : List Instr} {p p' : List Step} {i : Nat} (h : run cs p = .ok p') (h0 : Instr.isType i "Rest".toList ∈ cs)
    (h1 : Instr.endIs i (.nth 0) "StepTime".toList ∈ cs) : Rests p' i := by
  obtain ⟨s2, e2, hs2, he2, ht⟩ := run_endType h h1
  obtain ⟨s, hs, hty⟩ := run_isType h h0
  rw [hs2] at hs; cases hs
  exact ⟨s2, e2, hs2, hty, entries_of he2, ht⟩

/-- the repeat count after a run that ends with the assignment of the count -/
theorem loops {cs : List Instr} {p p' : List Step} {i : Nat} {v₁ v₂ : Val}
    (h : run (cs ++ [.loopCnt i v₁ v₂]) p = .ok p') :
    ∃ s, p'[i]? = some s ∧ s.stepType.take 4 = "Loop".toList ∧
      (s.stepType = "Loop 1".toList → ∃ e, s.ends = some (.one e) ∧ e.endType = "Loop Cnt".toList ∧ e.value = v₁) ∧
      (s.stepType = "Loop 2".toList → ∃ e, s.ends = some (.one e) ∧ e.endType = "Loop Cnt".toList ∧ e.value = v₂) := by
  induction cs generalizing p with
  | cons c cs ih =>
    obtain ⟨q, hq, hr⟩ := run_cons h
    exact ih hr
  | nil =>
    obtain ⟨q, hq, hr⟩ := run_cons h
    cases hr
    simp only [exec, bind, Except.bind] at hq
    split at hq
    · cases hq
    rename_i s hs
    have hs' := stepAt_ok hs
    have hlt : i < p.length := (List.getElem?_eq_some_iff.mp hs').1
    have key : ∀ v e, endAt s .one = .ok e → ∃ e', (putEnd s v .one).ends = some (.one e') ∧ e'.endType = e.endType ∧ e'.value = v := by
      intro v e he
      have := endOf_endAt he
      simp only [endOf] at this
      split at this <;> cases this
      rename_i hes
      exact ⟨{ e with value := v }, by simp only [putEnd, hes], rfl, rfl⟩
    have hty : ∀ v, (putEnd s v .one).stepType = s.stepType := fun v => (same_putEnd s v .one).1
    split at hq
    · rename_i htake
      split at hq
      · rename_i h1
        split at hq
        · cases hq
        rename_i e he
        split at hq <;> cases hq
        rename_i het
        obtain ⟨e', a, b, c⟩ := key v₁ e he
        refine ⟨putEnd s v₁ .one, by simp [hlt], by rw [hty]; exact htake, ?_, ?_⟩
        · intro _; exact ⟨e', a, b.trans het, c⟩
        · intro h2
          rw [hty, h1] at h2
          exact absurd h2 (by decide)
      · rename_i h1
        split at hq
        · rename_i h2
          split at hq
          · cases hq
          rename_i e he
          split at hq <;> cases hq
          rename_i het
          obtain ⟨e', a, b, c⟩ := key v₂ e he
          refine ⟨putEnd s v₂ .one, by simp [hlt], by rw [hty]; exact htake, ?_, ?_⟩
          · intro h3
            rw [hty] at h3
            exact absurd h3 h1
          · intro _; exact ⟨e', a, b.trans het, c⟩
        · rename_i h2
          cases hq
          exact ⟨s, hs', htake, fun h => absurd h h1, fun h => absurd h h2⟩
    · cases hq

theorem run_append {a b : List Instr} {p p' : List Step} (h : run (a ++ b) p = .ok p') :
    ∃ q, run a p = .ok q ∧ run b q = .ok p' := by
  induction a generalizing p with
  | nil => exact ⟨p, rfl, h⟩
  | cons c a ih =>
    obtain ⟨q, hq, hr⟩ := run_cons h
    obtain ⟨q', h1, h2⟩ := ih hr
    refine ⟨q', ?_, h2⟩
    simp only [run, bind, Except.bind, hq]
    exact h1

theorem near3 (x : Rat) : Near 1000 (n3 x) x := near_round 1000 (by decide) x
theorem near4 (x : Rat) : Near 10000 (n4 x) x := near_round 10000 (by decide) x

theorem commands3 {cs : List Instr} {p p' : List Step} {i : Nat} {ty mode : String} {x : Rat} (h : run cs p = .ok p')
    (h1 : Instr.isType i ty.toList ∈ cs) (h2 : Instr.isMode i mode.toList ∈ cs)
    (h3 : lastWrite (.value i) cs = some (.setValue i (n3 x))) : Commands p' i ty mode 1000 x :=
  commands h h1 h2 h3 rfl (near3 x)

theorem commands4 {cs : List Instr} {p p' : List Step} {i : Nat} {ty mode : String} {x : Rat} (h : run cs p = .ok p')
    (h1 : Instr.isType i ty.toList ∈ cs) (h2 : Instr.isMode i mode.toList ∈ cs)
    (h3 : lastWrite (.value i) cs = some (.setValue i (n4 x))) : Commands p' i ty mode 10000 x :=
  commands h h1 h2 h3 rfl (near4 x)

theorem limited3 {cs : List Instr} {p p' : List Step} {i : Nat} {key : String} {x : Rat} (h : run cs p = .ok p')
    (h3 : lastWrite (.limit i key.toList) cs = some (.setLimit i key.toList (n3 x))) : Limited p' i key 1000 x :=
  limited h h3 rfl (near3 x)

theorem threshold3 {cs : List Instr} {p p' : List Step} {i : Nat} (sel : Sel) {x : Rat} (h : run cs p = .ok p')
    (h3 : lastWrite (.ending i sel) cs = some (.setEnd i sel (n3 x))) : Threshold p' i (ord sel) 1000 x :=
  threshold h h3 rfl (near3 x)

theorem endsOn3 {cs : List Instr} {p p' : List Step} {i : Nat} (sel : Sel) {ty : String} {x : Rat} (h : run cs p = .ok p')
    (h1 : Instr.endIs i sel ty.toList ∈ cs)
    (h3 : lastWrite (.ending i sel) cs = some (.setEnd i sel (n3 x))) : EndsOn p' i (ord sel) ty 1000 x :=
  endsOn h h1 h3 rfl (near3 x)

theorem endsOn4 {cs : List Instr} {p p' : List Step} {i : Nat} (sel : Sel) {ty : String} {x : Rat} (h : run cs p = .ok p')
    (h1 : Instr.endIs i sel ty.toList ∈ cs)
    (h3 : lastWrite (.ending i sel) cs = some (.setEnd i sel (n4 x))) : EndsOn p' i (ord sel) ty 10000 x :=
  endsOn h h1 h3 rfl (near4 x)

/-! ### steps that are not touched afterwards -/

theorem charge_of {r : RegParam} {p p' : List Step} {i : Nat} (h : ∀ j, i ≤ j → j ≤ i + 3 → p'[j]? = p[j]?)
    (hc : Charge r p i) : Charge r p' i := by
  simp only [Charge, Commands, Timed, EndsOn, Rests] at hc ⊢
  rw [h i (by omega) (by omega), h (i + 1) (by omega) (by omega), h (i + 2) (by omega) (by omega), h (i + 3) (by omega) (by omega)]
  exact hc

theorem chargeV3_of {r : RegParam} {p p' : List Step} {i : Nat} (h : ∀ j, i ≤ j → j ≤ i + 3 → p'[j]? = p[j]?)
    (hc : ChargeV3 r p i) : ChargeV3 r p' i := by
  refine ⟨charge_of h hc.1, ?_⟩
  have h2 := hc.2
  simp only [Threshold] at h2 ⊢
  rw [h i (by omega) (by omega)]
  exact h2

theorem discharge_of {r : RegParam} {p p' : List Step} {i : Nat} (h : ∀ j, i ≤ j → j ≤ i + 3 → p'[j]? = p[j]?)
    (hc : Discharge r p i) : Discharge r p' i := by
  simp only [Discharge, Commands, EndsOn, Rests] at hc ⊢
  rw [h i (by omega) (by omega), h (i + 1) (by omega) (by omega), h (i + 3) (by omega) (by omega)]
  exact hc

theorem storage_of {r : RegParam} {p p' : List Step} {i : Nat} (h : ∀ j, i ≤ j → j ≤ i + 1 → p'[j]? = p[j]?)
    (hc : Storage r p i) : Storage r p' i := by
  simp only [Storage, Commands, EndsOn, Timed, Limited] at hc ⊢
  rw [h i (by omega) (by omega), h (i + 1) (by omega) (by omega)]
  exact hc

theorem resistance_of {r : RegParam} {p p' : List Step} {i : Nat} (h : p'[i]? = p[i]?)
    (hc : Resistance r p i) : Resistance r p' i := by
  simp only [Resistance, Commands] at hc ⊢
  rw [h]
  exact hc

theorem reset_of {cap : Rat} {d : DiagParam} {p p' : List Step} {i : Nat} (h : ∀ j, i ≤ j → j ≤ i + 1 → p'[j]? = p[j]?)
    (hc : Reset cap d p i) : Reset cap d p' i := by
  simp only [Reset, Commands, EndsOn, Limited] at hc ⊢
  rw [h i (by omega) (by omega), h (i + 1) (by omega) (by omega)]
  exact hc

theorem hppc_of {cap : Rat} {d : DiagParam} {p p' : List Step} {i : Nat} (h : ∀ j, i ≤ j → j ≤ i + 8 → p'[j]? = p[j]?)
    (hc : Hppc cap d p i) : Hppc cap d p' i := by
  simp only [Hppc, Commands, EndsOn, Limited, Timed, Rests] at hc ⊢
  rw [h i (by omega) (by omega), h (i + 2) (by omega) (by omega), h (i + 3) (by omega) (by omega),
    h (i + 4) (by omega) (by omega), h (i + 5) (by omega) (by omega), h (i + 6) (by omega) (by omega), h (i + 8) (by omega) (by omega)]
  exact hc

theorem pair_of {rate cap : Rat} {d : DiagParam} {p p' : List Step} {i : Nat} (h : ∀ j, i ≤ j → j ≤ i + 1 → p'[j]? = p[j]?)
    (hc : RatePair rate cap d p i) : RatePair rate cap d p' i := by
  simp only [RatePair, Commands, EndsOn, Limited] at hc ⊢
  rw [h i (by omega) (by omega), h (i + 1) (by omega) (by omega)]
  exact hc

theorem rpt_of {cap : Rat} {d : DiagParam} {p p' : List Step} {i : Nat} (h : ∀ j, i ≤ j → j ≤ i + 7 → p'[j]? = p[j]?)
    (hc : Rpt cap d p i) : Rpt cap d p' i :=
  ⟨pair_of (fun j a b => h j (by omega) (by omega)) hc.1, pair_of (fun j a b => h j (by omega) (by omega)) hc.2.1,
    pair_of (fun j a b => h j (by omega) (by omega)) hc.2.2⟩

theorem diagnostic_of {cap : Rat} {d : DiagParam} {p p' : List Step} {a b c : Nat}
    (h : ∀ j, (a ≤ j ∧ j ≤ a + 1) ∨ (b ≤ j ∧ j ≤ b + 8) ∨ (c ≤ j ∧ j ≤ c + 7) → p'[j]? = p[j]?)
    (hc : Diagnostic cap d p a b c) : Diagnostic cap d p' a b c :=
  ⟨reset_of (fun j x y => h j (.inl ⟨x, y⟩)) hc.1, hppc_of (fun j x y => h j (.inr (.inl ⟨x, y⟩))) hc.2.1,
    rpt_of (fun j x y => h j (.inr (.inr ⟨x, y⟩))) hc.2.2⟩

end Beep.Proof.Inserted
