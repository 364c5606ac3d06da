import Verif.Props.BiologicToMaccor
import Verif.Spec.BtmRuns
/-
C163: a converted Modulo Bat technique runs as the original.
-/
namespace Beep.Props.BtmRuns
open Beep Beep.BtM Beep.Spec.BtM Beep.Spec.BtmRuns Beep.Props.BiologicToMaccor

/-- a loop that becomes a Do/Loop pair -/
def Real (seqs : List BSeq) (s e : Nat) : Prop :=
  ∃ q, seqs[e]? = some q ∧ q.ctrlType = "Loop" ∧ q.repeats ≠ 0 ∧ q.loopTo = s ∧ advance seqs e q = false

theorem Real.isLoop {seqs : List BSeq} {s e : Nat} (h : Real seqs s e) : IsLoop seqs s e := by
  obtain ⟨q, a, b, c, d, _⟩ := h
  exact ⟨q, a, b, c, d⟩

def Fresh (seqs : List BSeq) (p : Nat) (K : Nat → Nat) (k : Nat) : Prop :=
  ∀ s e, Real seqs s e → (p ≤ s → K e = 0) ∧ (s < p → p ≤ e → k = K e)

def Inside (seqs : List BSeq) (p : Nat) (K : Nat → Nat) (k : Nat) : Prop :=
  ∀ s e, Real seqs s e → (p < s → K e = 0) ∧ (s ≤ p → p ≤ e → k = K e)

theorem same_loop (seqs : List BSeq)
    (hd : (∀ s e, IsLoop seqs s e → s ≤ e) ∧ ∀ s e s' e', IsLoop seqs s e → IsLoop seqs s' e' → e < e' → e < s')
    (s e s' e' p : Nat) (h : IsLoop seqs s e) (h' : IsLoop seqs s' e') (h1 : s ≤ p) (h2 : p ≤ e) (h3 : s' ≤ p) (h4 : p ≤ e') :
    s = s' ∧ e = e' := by
  have he : e = e' := by
    rcases Nat.lt_trichotomy e e' with c | c | c
    · have := hd.2 _ _ _ _ h h' c; omega
    · exact c
    · have := hd.2 _ _ _ _ h' h c; omega
  subst he
  obtain ⟨q, a, _, _, b⟩ := h
  obtain ⟨q', a', _, _, b'⟩ := h'
  rw [a] at a'; cases a'
  exact ⟨b.symm.trans b', rfl⟩

theorem forall₂_get {α β : Type} {R : α → β → Prop} {as : List α} {bs : List β} (h : List.Forall₂ R as bs) {j : Nat} {a : α}
    (ha : as[j]? = some a) : ∃ b, bs[j]? = some b ∧ R a b := by
  induction h generalizing j with
  | nil => simp at ha
  | cons h _ ih =>
    cases j with
    | zero => simp at ha; subst ha; exact ⟨_, by simp, h⟩
    | succ j => simpa using ih (by simpa using ha)

/-- what is known of a converted technique -/
structure Setting (count : Nat → Int) (seqs : List BSeq) (steps : List MStep) : Prop where
  ht : Targets seqs
  hd : (∀ s e, IsLoop seqs s e → s ≤ e) ∧ ∀ s e s' e', IsLoop seqs s e → IsLoop seqs s' e' → e < e' → e < s'
  hlen : steps.length = before seqs seqs.length + 1
  hend : steps.getLast? = some (plain "  End   ")
  hp : ∀ (i : Nat) q, seqs[i]? = some q → Placed seqs steps i q
  hj : ∀ (i : Nat) (q : BSeq), seqs[i]? = some q → q.ctrlType ≠ "Loop" → ∀ l ∈ q.lims,
    (∀ s e, IsLoop seqs s e → e < i → e ≤ l.goto) ∧
    ∀ s e, IsLoop seqs s e → s ≤ l.goto → l.goto ≤ e →
      (s ≤ i ∧ i ≤ e) ∨ (l.goto = s ∧ ∀ s' e', IsLoop seqs s' e' → ¬ (s' ≤ i ∧ i ≤ e'))
  hc : Counted seqs count
  hg : TameJumps seqs

section
variable {count : Nat → Int} {seqs : List BSeq} {steps : List MStep}

theorem Setting.real_start (S : Setting count seqs steps) {s e : Nat} (h : Real seqs s e) :
    ∃ t, seqs[s]? = some t ∧ t.ctrlType ≠ "Loop" := by
  obtain ⟨q, a, b, c, d, f⟩ := h
  subst d
  exact S.ht e q a b c f

theorem Setting.end_step (S : Setting count seqs steps) (k : Nat) : Mac count steps steps.length k [] [] := by
  refine .stop _ _ (plain "  End   ") ?_ rfl
  have hpos : steps.length ≠ 0 := by rw [S.hlen]; omega
  unfold at?
  rw [if_neg hpos]
  have := S.hend
  rw [List.getLast?_eq_getElem?] at this
  exact this

/-- from the position in front of a sequence to its step -/
theorem Setting.enter (S : Setting count seqs steps) (p : Nat) (q : BSeq) (hq : seqs[p]? = some q) (hb : blank q = false)
    (K : Nat → Nat) (k : Nat) (js tr : List Nat) (hf : Fresh seqs p K k)
    (h : ∀ k', Inside seqs p K k' → Mac count steps (stepNo seqs p) k' js tr) :
    Mac count steps (before seqs p + 1) k js tr := by
  cases hs : starts seqs p with
  | false =>
    have e : stepNo seqs p = before seqs p + 1 := by unfold stepNo; rw [hs]; simp
    rw [← e]
    refine h k fun s f hr => ⟨fun c => (hf s f hr).1 (by omega), fun c1 c2 => (hf s f hr).2 ?_ c2⟩
    by_contra hcon
    have : s = p := by omega
    subst this
    rw [(starts_iff ..).mpr ⟨f, hr.isLoop⟩] at hs
    cases hs
  | true =>
    have hnl := start_not_loop seqs S.ht p q hq hs hb
    have hp := S.hp p q hq
    unfold Placed at hp
    rw [hb, if_neg (by decide), if_neg (fun ha => hnl ((advance_iff ..).mp ha).1), if_neg hnl] at hp
    have hdo := hp.1 hs
    rcases hat : at? steps (before seqs p + 1) with _ | d
    · rw [hat] at hdo; cases hdo
    rw [hat] at hdo
    have hdt : d.stepType = "  Do 1  " := by simpa using hdo
    refine .do1 _ _ _ _ d hat hdt ?_
    have e : stepNo seqs p = before seqs p + 1 + 1 := by unfold stepNo; rw [hs]; simp
    rw [← e]
    refine h 0 fun s f hr => ⟨fun c => (hf s f hr).1 (by omega), fun c1 c2 => ?_⟩
    obtain ⟨f', hf'⟩ := (starts_iff ..).mp hs
    have hle := S.hd.1 _ _ hf'
    obtain ⟨rfl, -⟩ := same_loop seqs S.hd s f p f' p hr.isLoop hf' c1 c2 (le_refl _) hle
    exact ((hf s f hr).1 (le_refl _)).symm

theorem sim (S : Setting count seqs steps) (p : Nat) (K : Nat → Nat) (js tr : List Nat) (h : Bio seqs p K js tr) :
    (∀ k, Fresh seqs p K k → Mac count steps (before seqs p + 1) k js (tr.map (stepNo seqs))) ∧
    (∀ q, seqs[p]? = some q → blank q = false → ∀ k, Inside seqs p K k →
      Mac count steps (stepNo seqs p) k js (tr.map (stepNo seqs))) := by
  induction h with
  | done K =>
    refine ⟨fun k _ => ?_, fun q hq => ?_⟩
    · rw [← S.hlen]; exact S.end_step k
    · have := (List.getElem?_eq_some_iff.mp hq).1; omega
  | stop p K j q l hq hnl hl ha =>
    have hb : blank q = false := by simp [blank, hnl]
    have key : ∀ k, Inside seqs p K k → Mac count steps (stepNo seqs p) k [j] ([p].map (stepNo seqs)) := by
      intro k _
      have hp := S.hp p q hq
      unfold Placed at hp
      rw [hb, if_neg (by decide), if_neg (fun ha => hnl ((advance_iff ..).mp ha).1), if_neg hnl] at hp
      obtain ⟨_, s, h1, h2, h3⟩ := hp
      obtain ⟨e, he, hfol⟩ := forall₂_get h3 hl
      refine .run _ _ _ _ _ s e h1 h2 he ?_
      rw [hfol.1 ha]
      exact S.end_step k
    refine ⟨fun k hf => S.enter p q hq hb K k _ _ hf key, fun q' hq' _ => key⟩
  | next p K j js tr q l hq hnl hl ha _ ih =>
    have hb : blank q = false := by simp [blank, hnl]
    have key : ∀ k, Inside seqs p K k → Mac count steps (stepNo seqs p) k (j :: js) ((p :: tr).map (stepNo seqs)) := by
      intro k hin
      have hp := S.hp p q hq
      unfold Placed at hp
      rw [hb, if_neg (by decide), if_neg (fun ha => hnl ((advance_iff ..).mp ha).1), if_neg hnl] at hp
      obtain ⟨_, s, h1, h2, h3⟩ := hp
      obtain ⟨e, he, hfol⟩ := forall₂_get h3 hl
      refine .run _ _ _ _ _ s e h1 h2 he ?_
      rw [hfol.2.1 ha]
      have hw := width_eq seqs p q hq
      rw [hb, if_neg (by decide), if_neg (fun ha => hnl ((advance_iff ..).mp ha).1), if_neg hnl] at hw
      have e1 : stepNo seqs p + 1 = before seqs (p + 1) + 1 := by
        rw [before, hw]; unfold stepNo; split_ifs <;> omega
      rw [e1]
      exact ih.1 k fun s f hr => ⟨fun c => (hin s f hr).1 (by omega), fun c1 c2 => (hin s f hr).2 (by omega) (by omega)⟩
    refine ⟨fun k hf => S.enter p q hq hb K k _ _ hf key, fun q' hq' _ => key⟩
  | jump p K j js tr q l hq hnl hl ha _ ih =>
    have hb : blank q = false := by simp [blank, hnl]
    have key : ∀ k, Inside seqs p K k → Mac count steps (stepNo seqs p) k (j :: js) ((p :: tr).map (stepNo seqs)) := by
      intro k hin
      have hp := S.hp p q hq
      unfold Placed at hp
      rw [hb, if_neg (by decide), if_neg (fun ha => hnl ((advance_iff ..).mp ha).1), if_neg hnl] at hp
      obtain ⟨_, s, h1, h2, h3⟩ := hp
      obtain ⟨e, he, hfol⟩ := forall₂_get h3 hl
      refine .run _ _ _ _ _ s e h1 h2 he ?_
      have hmem : l ∈ q.lims := List.mem_iff_getElem?.mpr ⟨j, hl⟩
      obtain ⟨hfor, hback⟩ := S.hg p q l hq hnl hmem ha
      obtain ⟨hj1, hj2⟩ := S.hj p q hq hnl l hmem
      obtain ⟨_, _, f3, f4, _, f6, _⟩ := hfol
      obtain ⟨t, ht1, ht2⟩ := f6 ha
      have e1 : e.step = stepNo seqs l.goto := by
        by_cases hle : l.goto ≤ p
        · exact f3 ha hle
        · exact f4 ha (by omega) (hfor (by omega)).2
      rw [e1]
      refine ih.2 t ht1 ht2 k fun s f hr => ⟨fun c => ?_, fun c1 c2 => ?_⟩
      · by_cases h4 : p < s
        · exact (hin s f hr).1 h4
        · by_cases h5 : p ≤ f
          · have := hback s f hr.isLoop (by omega) h5
            omega
          · have := hj1 s f hr.isLoop (by omega)
            have := S.hd.1 s f hr.isLoop
            omega
      · rcases hj2 s f hr.isLoop c1 c2 with ⟨h4, h5⟩ | ⟨h4, h5⟩
        · exact (hin s f hr).2 h4 h5
        · exfalso
          have hst : starts seqs l.goto = true := (starts_iff ..).mpr ⟨f, by rw [h4]; exact hr.isLoop⟩
          by_cases h6 : p < l.goto
          · rw [(hfor h6).1] at hst; cases hst
          · by_cases h7 : p ≤ f
            · exact h5 s f hr.isLoop ⟨by omega, h7⟩
            · have h8 := hj1 s f hr.isLoop (by omega)
              have h9 := S.hd.1 s f hr.isLoop
              have : s = f := by omega
              subst this
              obtain ⟨t, b1, b2⟩ := S.real_start hr
              obtain ⟨q', b3, b4, _⟩ := hr
              rw [b1] at b3; cases b3
              exact b2 b4
    refine ⟨fun k hf => S.enter p q hq hb K k _ _ hf key, fun q' hq' _ => key⟩
  | again p K js tr q hq hlp hk _ ih =>
    have hr : q.repeats ≠ 0 := by omega
    have hb : blank q = false := by simp [blank, hr]
    have hns : starts seqs p = false := by
      cases hs : starts seqs p with
      | false => rfl
      | true => exact absurd hlp (start_not_loop seqs S.ht p q hq hs hb)
    have eno : stepNo seqs p = before seqs p + 1 := by unfold stepNo; rw [hns]; simp
    have hp := S.hp p q hq
    unfold Placed at hp
    rw [hb, if_neg (by decide)] at hp
    have key : ∀ k, Inside seqs p K k → Mac count steps (stepNo seqs p) k js (tr.map (stepNo seqs)) := by
      intro k hin
      cases hadv : advance seqs p q with
      | true =>
        obtain ⟨_, _, hto, b, hb1, hb2⟩ := (advance_iff ..).mp hadv
        have ebef : before seqs p = before seqs q.loopTo := by
          rw [← hto, before, width_eq seqs q.loopTo b hb1, hb2, if_pos rfl]; rfl
        rw [eno, ebef]
        refine ih.1 k fun s f hrl => ?_
        have hne : f ≠ p := by
          rintro rfl
          obtain ⟨q', a1, _, _, _, a2⟩ := hrl
          rw [hq] at a1; cases a1
          rw [hadv] at a2; cases a2
        have hK : withLap K p (K p + 1) f = K f := by simp [withLap, hne]
        have hs1 : s ≠ q.loopTo := by
          rintro rfl
          obtain ⟨t, t1, t2⟩ := S.real_start hrl
          rw [hb1] at t1; cases t1
          exact t2 ((blank_iff _).mp hb2).1
        have hs2 : s ≠ p := by
          rintro rfl
          obtain ⟨t, t1, t2⟩ := S.real_start hrl
          rw [hq] at t1; cases t1
          exact t2 hlp
        have hf1 : f ≠ q.loopTo := by
          rintro rfl
          obtain ⟨q', a1, _, a3, _⟩ := hrl
          rw [hb1] at a1; cases a1
          exact a3 ((blank_iff _).mp hb2).2
        rw [hK]
        exact ⟨fun c => (hin s f hrl).1 (by omega), fun c1 c2 => (hin s f hrl).2 (by omega) (by omega)⟩
      | false =>
        rw [hadv, if_neg (by decide), if_pos hlp] at hp
        obtain ⟨h1, lp, e, h2, h3, h4, h5, h6⟩ := hp
        have hrl : Real seqs q.loopTo p := ⟨q, hq, hlp, hr, rfl, hadv⟩
        have hle := S.hd.1 _ _ hrl.isLoop
        have hkk := (hin _ _ hrl).2 hle (le_refl _)
        rcases hat : at? steps (before seqs p + 1) with _ | a
        · rw [hat] at h1; cases h1
        rw [hat] at h1
        rw [eno]
        refine .adv _ _ _ _ a hat (by simpa using h1) ?_
        have hcnt := S.hc p q hq hlp hr
        refine .again _ _ _ _ lp e h2 h3 h4 (by rw [show before seqs p + 1 + 1 = before seqs p + 2 by omega, hcnt, hkk]; exact hk) ?_
        have hst : starts seqs q.loopTo = true := (starts_iff ..).mpr ⟨p, hrl.isLoop⟩
        have e2 : e.step + 1 = stepNo seqs q.loopTo := by rw [h5]; unfold stepNo; rw [hst]; simp
        rw [e2]
        obtain ⟨t, t1, t2⟩ := S.real_start hrl
        refine ih.2 t t1 (by simp [blank, t2]) (k + 1) fun s f hrl' => ⟨fun c => ?_, fun c1 c2 => ?_⟩
        · have hle' := S.hd.1 _ _ hrl'.isLoop
          have hps : p < s := by
            rcases Nat.lt_trichotomy f p with c' | c' | c'
            · have := S.hd.2 _ _ _ _ hrl'.isLoop hrl.isLoop c'; omega
            · subst c'
              obtain ⟨h7, _⟩ := same_loop seqs S.hd _ _ _ _ f hrl.isLoop hrl'.isLoop hle (le_refl _) hle' (le_refl _)
              omega
            · exact S.hd.2 _ _ _ _ hrl.isLoop hrl'.isLoop c'
          have hne : f ≠ p := by omega
          have hK : withLap K p (K p + 1) f = K f := by simp [withLap, hne]
          rw [hK]
          exact (hin s f hrl').1 hps
        · obtain ⟨_, rfl⟩ := same_loop seqs S.hd _ _ _ _ _ hrl.isLoop hrl'.isLoop (le_refl _) hle c1 c2
          simp [withLap, hkk]
    refine ⟨fun k hf => S.enter p q hq hb K k _ _ hf key, fun q' hq' _ => key⟩
  | leave p K js tr q hq hlp hk _ ih =>
    have hp := S.hp p q hq
    unfold Placed at hp
    cases hb : blank q with
    | true =>
      refine ⟨fun k hf => ?_, fun q' hq' hb' => by rw [hq] at hq'; cases hq'; rw [hb] at hb'; cases hb'⟩
      have ebef : before seqs p = before seqs (p + 1) := by
        rw [before, width_eq seqs p q hq, hb, if_pos rfl]; rfl
      rw [ebef]
      refine ih.1 k fun s f hrl => ?_
      have hne : f ≠ p := by
        rintro rfl
        obtain ⟨q', a1, _, a3, _⟩ := hrl
        rw [hq] at a1; cases a1
        exact a3 ((blank_iff _).mp hb).2
      have hs2 : s ≠ p := by
        rintro rfl
        obtain ⟨t, t1, t2⟩ := S.real_start hrl
        rw [hq] at t1; cases t1
        exact t2 hlp
      have hK : withLap K p 0 f = K f := by simp [withLap, hne]
      rw [hK]
      exact ⟨fun c => (hf s f hrl).1 (by omega), fun c1 c2 => (hf s f hrl).2 (by omega) (by omega)⟩
    | false =>
      have hr : q.repeats ≠ 0 := fun h0 => by rw [(blank_iff q).mpr ⟨hlp, h0⟩] at hb; cases hb
      rw [hb, if_neg (by decide)] at hp
      have hns : starts seqs p = false := by
        cases hs : starts seqs p with
        | false => rfl
        | true => exact absurd hlp (start_not_loop seqs S.ht p q hq hs hb)
      have eno : stepNo seqs p = before seqs p + 1 := by unfold stepNo; rw [hns]; simp
      have hw := width_eq seqs p q hq
      rw [hb, if_neg (by decide)] at hw
      have key : ∀ k, Inside seqs p K k → Mac count steps (stepNo seqs p) k js (tr.map (stepNo seqs)) := by
        intro k hin
        rw [eno]
        cases hadv : advance seqs p q with
        | true =>
          rw [hadv, if_pos rfl] at hp hw
          rcases hat : at? steps (before seqs p + 1) with _ | a
          · rw [hat] at hp; cases hp
          rw [hat] at hp
          refine .adv _ _ _ _ a hat (by simpa using hp) ?_
          rw [show before seqs p + 1 + 1 = before seqs (p + 1) + 1 by rw [before, hw]]
          refine ih.1 k fun s f hrl => ?_
          have hne : f ≠ p := by
            rintro rfl
            obtain ⟨q', a1, _, _, _, a2⟩ := hrl
            rw [hq] at a1; cases a1
            rw [hadv] at a2; cases a2
          have hK : withLap K p 0 f = K f := by simp [withLap, hne]
          rw [hK]
          exact ⟨fun c => (hin s f hrl).1 (by omega), fun c1 c2 => (hin s f hrl).2 (by omega) (by omega)⟩
        | false =>
          rw [hadv, if_neg (by decide), if_pos hlp] at hp hw
          obtain ⟨h1, lp, e, h2, h3, h4, h5, h6⟩ := hp
          have hrl : Real seqs q.loopTo p := ⟨q, hq, hlp, hr, rfl, hadv⟩
          have hle := S.hd.1 _ _ hrl.isLoop
          have hkk := (hin _ _ hrl).2 hle (le_refl _)
          rcases hat : at? steps (before seqs p + 1) with _ | a
          · rw [hat] at h1; cases h1
          rw [hat] at h1
          refine .adv _ _ _ _ a hat (by simpa using h1) ?_
          have hcnt := S.hc p q hq hlp hr
          refine .leave _ _ _ _ lp h2 h3 (by rw [show before seqs p + 1 + 1 = before seqs p + 2 by omega, hcnt, hkk]; exact hk) ?_
          rw [show before seqs p + 1 + 1 + 1 = before seqs (p + 1) + 1 by rw [before, hw]]
          refine ih.1 0 fun s f hrl' => ⟨fun c => ?_, fun c1 c2 => ?_⟩
          · have hle' := S.hd.1 _ _ hrl'.isLoop
            have hne : f ≠ p := by omega
            have hK : withLap K p 0 f = K f := by simp [withLap, hne]
            rw [hK]
            exact (hin s f hrl').1 (by omega)
          · have := S.hd.2 _ _ _ _ hrl.isLoop hrl'.isLoop (by omega)
            omega
      refine ⟨fun k hf => S.enter p q hq hb K k _ _ hf key, fun q' hq' _ => key⟩

end

/-- C163: the Maccor cycler runs the steps of the sequences that the Biologic cycler runs, in the same order and as often,
whichever limits are reached, if its loops are set to the counts of the technique and no jump is of the kinds that are converted
wrongly.  (Missing: that the counts are in the procedure, see `C163_count_violated`, and forward jumps to the start of a loop or
to a sequence that happens to bear the number of a step behind a Do step, see `C163_jump_violated`; jumps that leave a loop
backwards are left out because it is not known whether the Biologic cycler then counts on.) -/
theorem C163_runs_partial (seqs : List BSeq) (steps : List MStep) (h : createSteps seqs = .ok steps) (count : Nat → Int)
    (hc : Counted seqs count) (hg : TameJumps seqs) (js tr : List Nat) (hb : Bio seqs 0 (fun _ => 0) js tr) :
    Mac count steps 1 0 js (tr.map (stepNo seqs)) := by
  obtain ⟨ht, hlen, hend, _⟩ := createSteps_local seqs steps h
  have hl := C31_layout_partial seqs steps h
  have S : Setting count seqs steps := ⟨ht, C31_disjoint seqs steps h, hlen, hend, hl.2.2,
    fun i q hq hnl l hl' => C31_jumps seqs steps h i q hq hnl l hl', hc, hg⟩
  exact (sim S 0 _ js tr hb).1 0 fun s e _ => ⟨fun _ => rfl, fun _ _ => rfl⟩

theorem mac_unique {count : Nat → Int} {steps : List MStep} {n k : Nat} {js tr tr' : List Nat} (h : Mac count steps n k js tr)
    (h' : Mac count steps n k js tr') : tr = tr' := by
  have ctl : ∀ {s : MStep} {t : String}, s.stepType ∈ controlled → s.stepType = t → t ∈ controlled := fun a b => b ▸ a
  induction h generalizing tr' with
  | stop n k s hs ht =>
    cases h' with
    | stop => rfl
    | adv _ _ _ _ s' hs' ht' => rw [hs] at hs'; cases hs'; rw [ht] at ht'; exact absurd ht' (by decide)
    | do1 _ _ _ _ s' hs' ht' => rw [hs] at hs'; cases hs'; rw [ht] at ht'; exact absurd ht' (by decide)
    | again _ _ _ _ s' e hs' ht' => rw [hs] at hs'; cases hs'; rw [ht] at ht'; exact absurd ht' (by decide)
    | leave _ _ _ _ s' hs' ht' => rw [hs] at hs'; cases hs'; rw [ht] at ht'; exact absurd ht' (by decide)
  | adv n k js tr s hs ht _ ih =>
    cases h' with
    | stop _ _ s' hs' ht' => rw [hs] at hs'; cases hs'; rw [ht] at ht'; exact absurd ht' (by decide)
    | adv _ _ _ _ s' hs' ht' h2 => exact ih h2
    | do1 _ _ _ _ s' hs' ht' => rw [hs] at hs'; cases hs'; rw [ht] at ht'; exact absurd ht' (by decide)
    | run _ _ _ _ _ s' e hs' ht' => rw [hs] at hs'; cases hs'; exact absurd (ctl ht' ht) (by decide)
    | again _ _ _ _ s' e hs' ht' => rw [hs] at hs'; cases hs'; rw [ht] at ht'; exact absurd ht' (by decide)
    | leave _ _ _ _ s' hs' ht' => rw [hs] at hs'; cases hs'; rw [ht] at ht'; exact absurd ht' (by decide)
  | do1 n k js tr s hs ht _ ih =>
    cases h' with
    | stop _ _ s' hs' ht' => rw [hs] at hs'; cases hs'; rw [ht] at ht'; exact absurd ht' (by decide)
    | adv _ _ _ _ s' hs' ht' => rw [hs] at hs'; cases hs'; rw [ht] at ht'; exact absurd ht' (by decide)
    | do1 _ _ _ _ s' hs' ht' h2 => exact ih h2
    | run _ _ _ _ _ s' e hs' ht' => rw [hs] at hs'; cases hs'; exact absurd (ctl ht' ht) (by decide)
    | again _ _ _ _ s' e hs' ht' => rw [hs] at hs'; cases hs'; rw [ht] at ht'; exact absurd ht' (by decide)
    | leave _ _ _ _ s' hs' ht' => rw [hs] at hs'; cases hs'; rw [ht] at ht'; exact absurd ht' (by decide)
  | run n k j js tr s e hs ht he _ ih =>
    cases h' with
    | adv _ _ _ _ s' hs' ht' => rw [hs] at hs'; cases hs'; exact absurd (ctl ht ht') (by decide)
    | do1 _ _ _ _ s' hs' ht' => rw [hs] at hs'; cases hs'; exact absurd (ctl ht ht') (by decide)
    | run _ _ _ _ _ s' e' hs' ht' he' h2 =>
      rw [hs] at hs'; cases hs'
      rw [he] at he'; cases he'
      rw [ih h2]
    | again _ _ _ _ s' e hs' ht' => rw [hs] at hs'; cases hs'; exact absurd (ctl ht ht') (by decide)
    | leave _ _ _ _ s' hs' ht' => rw [hs] at hs'; cases hs'; exact absurd (ctl ht ht') (by decide)
  | again n k js tr s e hs ht he hk _ ih =>
    cases h' with
    | stop _ _ s' hs' ht' => rw [hs] at hs'; cases hs'; rw [ht] at ht'; exact absurd ht' (by decide)
    | adv _ _ _ _ s' hs' ht' => rw [hs] at hs'; cases hs'; rw [ht] at ht'; exact absurd ht' (by decide)
    | do1 _ _ _ _ s' hs' ht' => rw [hs] at hs'; cases hs'; rw [ht] at ht'; exact absurd ht' (by decide)
    | run _ _ _ _ _ s' e hs' ht' => rw [hs] at hs'; cases hs'; exact absurd (ctl ht' ht) (by decide)
    | again _ _ _ _ s' e' hs' ht' he' hk' h2 =>
      rw [hs] at hs'; cases hs'
      rw [he] at he'; cases he'
      exact ih h2
    | leave _ _ _ _ s' hs' ht' hk' => omega
  | leave n k js tr s hs ht hk _ ih =>
    cases h' with
    | stop _ _ s' hs' ht' => rw [hs] at hs'; cases hs'; rw [ht] at ht'; exact absurd ht' (by decide)
    | adv _ _ _ _ s' hs' ht' => rw [hs] at hs'; cases hs'; rw [ht] at ht'; exact absurd ht' (by decide)
    | do1 _ _ _ _ s' hs' ht' => rw [hs] at hs'; cases hs'; rw [ht] at ht'; exact absurd ht' (by decide)
    | run _ _ _ _ _ s' e hs' ht' => rw [hs] at hs'; cases hs'; exact absurd (ctl ht' ht) (by decide)
    | again _ _ _ _ s' e' hs' ht' he' hk' => omega
    | leave _ _ _ _ s' hs' ht' hk' h2 => exact ih h2

/-- C163: what the Maccor cycler runs is determined by the limits that are reached -/
theorem C163_unique (count : Nat → Int) (steps : List MStep) (n k : Nat) (js tr tr' : List Nat)
    (h : Mac count steps n k js tr) (h' : Mac count steps n k js tr') : tr = tr' := mac_unique h h'

/-! ### the counts are not converted -/

theorem other_active {q q' : BSeq} (h : q' = { q with repeats := q'.repeats } ∧ (q'.repeats = 0 ↔ q.repeats = 0)) :
    isActive q' = isActive q := by
  obtain ⟨h1, h2⟩ := h
  rw [Bool.eq_iff_iff, isActive_iff, isActive_iff]
  rw [show q'.ctrlType = q.ctrlType by rw [h1]]
  simp only [ne_eq, h2]

theorem other_revPass {qs qs' : List BSeq} (h : OtherCounts qs qs') (i : Nat) : revPass i qs' = revPass i qs := by
  induction h generalizing i with
  | nil => rfl
  | @cons q q' qs qs' h _ ih =>
    rw [revPass, revPass, ih]
    congr 1
    funext st
    unfold revStep overlaps
    rw [other_active h, show q'.loopTo = q.loopTo by rw [h.1]]

theorem other_get {qs qs' : List BSeq} (h : OtherCounts qs qs') (i : Nat) :
    qs'[i]?.map BSeq.ctrlType = qs[i]?.map BSeq.ctrlType := by
  induction h generalizing i with
  | nil => rfl
  | @cons q q' qs qs' h _ ih =>
    cases i with
    | zero => simp only [List.getElem?_cons_zero, Option.map_some]; rw [h.1]
    | succ i => simpa using ih i

theorem other_numStep {seqs seqs' : List BSeq} (hs : OtherCounts seqs seqs') (active : List Nat) (st : NumState) (i : Nat)
    {q q' : BSeq} (h : q' = { q with repeats := q'.repeats } ∧ (q'.repeats = 0 ↔ q.repeats = 0)) :
    numStep seqs' active st i q' = numStep seqs active st i q := by
  have e1 : q'.ctrlType = q.ctrlType := by rw [h.1]
  have e2 : q'.loopTo = q.loopTo := by rw [h.1]
  have e3 := other_get hs q.loopTo
  unfold numStep
  simp only [e1, e2, h.2]
  cases h1 : seqs'[q.loopTo]? with
  | none =>
    rw [h1] at e3
    cases h2 : seqs[q.loopTo]? with
    | none => rfl
    | some t => rw [h2] at e3; cases e3
  | some t' =>
    rw [h1] at e3
    cases h2 : seqs[q.loopTo]? with
    | none => rw [h2] at e3; cases e3
    | some t =>
      rw [h2] at e3
      have e4 : t'.ctrlType = t.ctrlType := by simpa using e3
      simp only [e4]

theorem other_numPass {seqs seqs' : List BSeq} (hs : OtherCounts seqs seqs') (active : List Nat) {qs qs' : List BSeq}
    (h : OtherCounts qs qs') (st : NumState) (i : Nat) : numPass seqs' active st i qs' = numPass seqs active st i qs := by
  induction h generalizing st i with
  | nil => rfl
  | cons h _ ih =>
    rw [numPass, numPass, other_numStep hs active st i h]
    congr 1
    funext st1
    exact ih st1 (i + 1)

theorem other_gotoPass (ranges : List (Nat × (Nat × Nat))) (blanks : List Nat) {qs qs' : List BSeq}
    (h : OtherCounts qs qs') (last : Option Nat) (i : Nat) : gotoPass ranges blanks last i qs' = gotoPass ranges blanks last i qs := by
  induction h generalizing last i with
  | nil => rfl
  | @cons q q' qs qs' h _ ih =>
    rw [gotoPass, gotoPass, ih, ih, show q'.ctrlType = q.ctrlType by rw [h.1], show q'.lims = q.lims by rw [h.1]]

/-- two results with equal readable steps -/
def SameRead (a b : Except Err (List MStep)) : Prop := a.map (List.map readable) = b.map (List.map readable)

theorem sameRead_bind {a b : Except Err (List MStep)} (h : SameRead a b) {f g : List MStep → Except Err (List MStep)}
    (hfg : ∀ x y : List MStep, x.map readable = y.map readable → SameRead (f x) (g y)) : SameRead (a >>= f) (b >>= g) := by
  unfold SameRead at h
  cases a with
  | error e =>
    cases b with
    | error e' => cases h; rfl
    | ok y => cases h
  | ok x =>
    cases b with
    | error e' => cases h
    | ok y =>
      refine hfg x y ?_
      simpa [Except.map] using h

theorem other_loopStep (num : Nat → Option Nat)
    {q q' : BSeq} (h : q' = { q with repeats := q'.repeats } ∧ (q'.repeats = 0 ↔ q.repeats = 0)) :
    (loopStep num q').map readable = (loopStep num q).map readable := by
  unfold loopStep
  rw [show q'.loopTo = q.loopTo by rw [h.1]]
  cases num q.loopTo with
  | none => rfl
  | some n =>
    simp only []
    split <;> rfl

theorem other_emit (active : List Nat) (st : NumState) (i : Nat)
    {q q' : BSeq} (h : q' = { q with repeats := q'.repeats } ∧ (q'.repeats = 0 ↔ q.repeats = 0)) :
    SameRead (emit active st i q') (emit active st i q) := by
  have e0 : q'.ctrlType = q.ctrlType := by rw [h.1]
  have e3 : q'.loopTo = q.loopTo := by rw [h.1]
  have e : ∀ n l k i r, createStep n l k i { q with repeats := r } = createStep n l k i q := fun _ _ _ _ _ => rfl
  have e1 : ∀ n l k i, createStep n l k i q' = createStep n l k i q := by
    intro n l k i
    rw [h.1]
    exact e _ _ _ _ _
  have e2 : ∀ num, (loopStep num q').map readable = (loopStep num q).map readable := fun num => other_loopStep num h
  unfold SameRead emit
  simp only [e0, e1, e3]
  split
  · rfl
  split
  · rfl
  split
  · have := e2 (numOf st.nums)
    cases h1 : loopStep (numOf st.nums) q' with
    | error x =>
      cases h2 : loopStep (numOf st.nums) q with
      | error y => rw [h1, h2] at this; cases this; rfl
      | ok y => rw [h1, h2] at this; cases this
    | ok x =>
      cases h2 : loopStep (numOf st.nums) q with
      | error y => rw [h1, h2] at this; cases this
      | ok y =>
        rw [h1, h2] at this
        have : readable x = readable y := by simpa [Except.map] using this
        simp [bind, Except.bind, Except.map, pure, Except.pure, this]
  · rfl

theorem other_emitPass (active : List Nat) (st : NumState) {qs qs' : List BSeq} (h : OtherCounts qs qs') (i : Nat) :
    SameRead (emitPass active st i qs') (emitPass active st i qs) := by
  induction h generalizing i with
  | nil => rfl
  | cons h _ ih =>
    rw [emitPass, emitPass]
    refine sameRead_bind (other_emit active st i h) fun x y hxy => sameRead_bind (ih (i + 1)) fun x' y' hxy' => ?_
    simp [SameRead, pure, Except.pure, Except.map, hxy, hxy']

/-- C163 fails: how often a loop goes back is in no field of the procedure that Maccor procedures have.  Techniques that differ
only in this become the same procedure, but for the unknown key. -/
theorem C163_count_violated (seqs seqs' : List BSeq) (h : OtherCounts seqs seqs') :
    (createSteps seqs').map (List.map readable) = (createSteps seqs).map (List.map readable) := by
  unfold createSteps
  rw [other_revPass h]
  cases revPass 0 seqs with
  | error e => rfl
  | ok rev =>
    simp only [bind, Except.bind]
    split
    · rfl
    rw [other_numPass h rev.active h]
    cases numPass seqs rev.active _ 0 seqs with
    | error e => rfl
    | ok st =>
      simp only []
      rw [other_gotoPass rev.ranges st.blanks h]
      split
      · rfl
      refine sameRead_bind (other_emitPass rev.active st h 0) fun x y hxy => ?_
      simp [SameRead, pure, Except.pure, Except.map, hxy]

/-- one sequence, run three times or four times -/
example : OtherCounts [cc "Charge" [lim "Next sequence" 1], loopTo 0 2] [cc "Charge" [lim "Next sequence" 1], loopTo 0 3] ∧
    (∃ steps, createSteps [cc "Charge" [lim "Next sequence" 1], loopTo 0 2] = .ok steps) ∧
    Bio [cc "Charge" [lim "Next sequence" 1], loopTo 0 2] 0 (fun _ => 0) [0, 0, 0] [0, 0, 0] ∧
    Bio [cc "Charge" [lim "Next sequence" 1], loopTo 0 3] 0 (fun _ => 0) [0, 0, 0, 0] [0, 0, 0, 0] := by
  refine ⟨.cons ⟨rfl, Iff.rfl⟩ (.cons ⟨rfl, by decide⟩ .nil), ⟨_, rfl⟩, ?_, ?_⟩
  · refine .next _ _ _ _ _ _ _ rfl (by decide) rfl rfl (.again _ _ _ _ _ rfl rfl (by decide) ?_)
    refine .next _ _ _ _ _ _ _ rfl (by decide) rfl rfl (.again _ _ _ _ _ rfl rfl (by decide) ?_)
    exact .next _ _ _ _ _ _ _ rfl (by decide) rfl rfl (.leave _ _ _ _ _ rfl rfl (by decide) (.done _))
  · refine .next _ _ _ _ _ _ _ rfl (by decide) rfl rfl (.again _ _ _ _ _ rfl rfl (by decide) ?_)
    refine .next _ _ _ _ _ _ _ rfl (by decide) rfl rfl (.again _ _ _ _ _ rfl rfl (by decide) ?_)
    refine .next _ _ _ _ _ _ _ rfl (by decide) rfl rfl (.again _ _ _ _ _ rfl rfl (by decide) ?_)
    exact .next _ _ _ _ _ _ _ rfl (by decide) rfl rfl (.leave _ _ _ _ _ rfl rfl (by decide) (.done _))

theorem mac_do {count : Nat → Int} {steps : List MStep} {n k : Nat} {js tr : List Nat} {s : MStep}
    (hs : at? steps n = some s) (ht : s.stepType = "  Do 1  ") (h : Mac count steps n k js tr) :
    Mac count steps (n + 1) 0 js tr := by
  cases h with
  | stop _ _ s' hs' ht' => rw [hs] at hs'; cases hs'; rw [ht] at ht'; exact absurd ht' (by decide)
  | adv _ _ _ _ s' hs' ht' => rw [hs] at hs'; cases hs'; rw [ht] at ht'; exact absurd ht' (by decide)
  | do1 _ _ _ _ s' hs' ht' h2 => exact h2
  | run _ _ _ _ _ s' e hs' ht' => rw [hs] at hs'; cases hs'; rw [ht] at ht'; exact absurd ht' (by decide)
  | again _ _ _ _ s' e hs' ht' => rw [hs] at hs'; cases hs'; rw [ht] at ht'; exact absurd ht' (by decide)
  | leave _ _ _ _ s' hs' ht' => rw [hs] at hs'; cases hs'; rw [ht] at ht'; exact absurd ht' (by decide)

theorem mac_run {count : Nat → Int} {steps : List MStep} {n k : Nat} {js tr : List Nat} {s : MStep}
    (hs : at? steps n = some s) (ht : s.stepType ∈ controlled) (h : Mac count steps n k js tr) :
    ∃ j js' tr' e, js = j :: js' ∧ s.ends[j]? = some e ∧ Mac count steps e.step k js' tr' := by
  cases h with
  | stop _ _ s' hs' ht' => rw [hs] at hs'; cases hs'; rw [ht'] at ht; exact absurd ht (by decide)
  | adv _ _ _ _ s' hs' ht' => rw [hs] at hs'; cases hs'; rw [ht'] at ht; exact absurd ht (by decide)
  | do1 _ _ _ _ s' hs' ht' => rw [hs] at hs'; cases hs'; rw [ht'] at ht; exact absurd ht (by decide)
  | run _ _ j js' tr' s' e hs' ht' he h2 => rw [hs] at hs'; cases hs'; exact ⟨j, js', tr', e, rfl, he, h2⟩
  | again _ _ _ _ s' e hs' ht' => rw [hs] at hs'; cases hs'; rw [ht'] at ht; exact absurd ht (by decide)
  | leave _ _ _ _ s' hs' ht' => rw [hs] at hs'; cases hs'; rw [ht'] at ht; exact absurd ht (by decide)

/-- a loop over three sequences; the first jumps to the third, the third ends the technique -/
def skipping : List BSeq :=
  [cc "Charge" [lim "Goto sequence" 2], cc "Charge" [lim "Next sequence" 2], cc "Charge" [lim "End" 2], loopTo 0 1]

/-- C163 fails: a forward jump can land on the wrong step.  The technique runs its sequences 0 and 2 and ends; the procedure,
however its loop is set, runs the steps of the sequences 0, 1 and 2. -/
theorem C163_jump_violated : ∃ steps, createSteps skipping = .ok steps ∧
    Bio skipping 0 (fun _ => 0) [0, 0] [0, 2] ∧
    ∀ count, Mac count steps 1 0 [0, 0, 0] ([0, 1, 2].map (stepNo skipping)) ∧ ∀ tr, ¬ Mac count steps 1 0 [0, 0] tr := by
  refine ⟨_, rfl, ?_, fun count => ⟨?_, ?_⟩⟩
  · exact .jump _ _ _ _ _ _ _ rfl (by decide) rfl rfl (.stop _ _ _ _ _ rfl (by decide) rfl rfl)
  · refine .do1 _ _ _ _ _ rfl rfl ?_
    refine .run _ _ _ _ _ _ _ rfl (by decide) rfl ?_
    refine .run _ _ _ _ _ _ _ rfl (by decide) rfl ?_
    refine .run _ _ _ _ _ _ _ rfl (by decide) rfl ?_
    exact .stop _ _ _ rfl rfl
  · intro tr h
    have h1 := mac_do rfl rfl h
    obtain ⟨j, js, tr', e, hj, he, h2⟩ := mac_run rfl (by decide) h1
    cases hj
    cases he
    obtain ⟨j, js, tr', e, hj, he, h3⟩ := mac_run rfl (by decide) h2
    cases hj
    cases he
    obtain ⟨j, js, tr', e, hj, he, h4⟩ := mac_run rfl (by decide) h3
    cases hj

/-- a technique with a cycle advance, a loop with a jump inside it and a jump out of it meets the hypotheses -/
def sample : List BSeq :=
  [cc "Charge" [lim "Next sequence" 1], loopTo 0 0, loopTo 1 1,
   cc "Charge" [lim "Next sequence" 4], cc "Charge" [lim "Goto sequence" 3, lim "Next sequence" 5, lim "Goto sequence" 6],
   loopTo 3 2, cc "Charge" [lim "End" 7]]

example : (∃ steps, createSteps sample = .ok steps) ∧ Counted sample (fun n => if n = 7 then 2 else if n = 3 then 1 else 0) ∧
    TameJumps sample ∧ Bio sample 0 (fun _ => 0) [0, 0, 0, 0, 1, 0, 2, 0] [0, 3, 4, 3, 4, 3, 4, 6] := by
  refine ⟨⟨_, rfl⟩, ?_, ?_, ?_⟩
  · intro p q hq hl hr
    have hp : p < 7 := (List.getElem?_eq_some_iff.mp hq).1
    have : p = 0 ∨ p = 1 ∨ p = 2 ∨ p = 3 ∨ p = 4 ∨ p = 5 ∨ p = 6 := by omega
    rcases this with rfl | rfl | rfl | rfl | rfl | rfl | rfl <;> cases hq <;> revert hl hr <;> decide
  · intro p q l hq hl hm ha
    have loops : ∀ s e, Looped sample s e → s = 1 ∧ e = 2 ∨ s = 3 ∧ e = 5 := by
      rintro s e ⟨q', h1, h2, h3, h4⟩
      have hp : e < 7 := (List.getElem?_eq_some_iff.mp h1).1
      have : e = 0 ∨ e = 1 ∨ e = 2 ∨ e = 3 ∨ e = 4 ∨ e = 5 ∨ e = 6 := by omega
      rcases this with rfl | rfl | rfl | rfl | rfl | rfl | rfl <;> cases h1 <;> revert h2 h3 h4 <;> simp +decide [loopTo] <;> omega
    have behind : ¬ BehindDo sample 6 := by
      rintro ⟨s, q', h1, h2, h3, h4⟩
      have hp : s < 7 := (List.getElem?_eq_some_iff.mp h1).1
      have : s = 0 ∨ s = 1 ∨ s = 2 ∨ s = 3 ∨ s = 4 ∨ s = 5 ∨ s = 6 := by omega
      rcases this with rfl | rfl | rfl | rfl | rfl | rfl | rfl <;> revert h3 h4 <;> decide
    have hp : p < 7 := (List.getElem?_eq_some_iff.mp hq).1
    have : p = 0 ∨ p = 1 ∨ p = 2 ∨ p = 3 ∨ p = 4 ∨ p = 5 ∨ p = 6 := by omega
    rcases this with rfl | rfl | rfl | rfl | rfl | rfl | rfl <;> cases hq
    · simp [cc, lim] at hm; subst hm; simp at ha
    · exact absurd rfl hl
    · exact absurd rfl hl
    · simp [cc, lim] at hm; subst hm; simp at ha
    · simp [cc, lim] at hm
      rcases hm with rfl | rfl | rfl
      · refine ⟨fun h => absurd h (by decide), fun s e hse h1 h2 => ?_⟩
        rcases loops s e hse with ⟨rfl, rfl⟩ | ⟨rfl, rfl⟩
        · omega
        · decide
      · simp at ha
      · refine ⟨fun _ => ⟨by decide, behind⟩, fun s e hse h1 h2 => ?_⟩
        show s ≤ 6
        omega
    · exact absurd rfl hl
    · simp [cc, lim] at hm; subst hm; simp at ha
  · refine .next _ _ _ _ _ _ _ rfl (by decide) rfl rfl (.leave _ _ _ _ _ rfl rfl (by decide) ?_)
    refine .again _ _ _ _ _ rfl rfl (by decide) (.leave _ _ _ _ _ rfl rfl (by decide) (.leave _ _ _ _ _ rfl rfl (by decide) ?_))
    refine .next _ _ _ _ _ _ _ rfl (by decide) rfl rfl (.jump _ _ _ _ _ _ _ rfl (by decide) rfl rfl ?_)
    refine .next _ _ _ _ _ _ _ rfl (by decide) rfl rfl (.next _ _ _ _ _ _ _ rfl (by decide) rfl rfl ?_)
    refine .again _ _ _ _ _ rfl rfl (by decide) ?_
    refine .next _ _ _ _ _ _ _ rfl (by decide) rfl rfl (.jump _ _ _ _ _ _ _ rfl (by decide) rfl rfl ?_)
    exact .stop _ _ _ _ _ rfl (by decide) rfl rfl

end Beep.Props.BtmRuns
