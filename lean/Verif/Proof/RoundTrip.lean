import Verif.Proof.Base
import Verif.Props.Units
import Verif.Props.BiologicToMaccor
import Verif.Spec.RoundTrip
/-
Lemmas about converting a Maccor procedure to Biologic and back.
-/
namespace Beep.Proof.RoundTrip
open Beep Beep.Units Beep.RoundTrip Beep.Spec.RoundTrip Beep.Spec.Units

/-- row by row with the position -/
def Rows {α β : Type} (R : Nat → α → β → Prop) : Nat → List α → List β → Prop
  | _, [], [] => True
  | i, a :: as, b :: bs => R i a b ∧ Rows R (i + 1) as bs
  | _, _, _ => False

/-! ### to Biologic -/

theorem filterE_all {α : Type} (p : α → Except Err Bool) (l : List α) (h : ∀ a, p a = .ok true) :
    MtB.filterE p l = .ok l := by
  induction l with
  | nil => rfl
  | cons a as ih => simp [MtB.filterE, h a, ih, bind, Except.bind, pure, Except.pure]

theorem filterEnds_all (p : MtB.EndEntry → Except Err Bool) (s : MtB.Step) (h : ∀ a, p a = .ok true) :
    MtB.filterEnds p s = .ok s := by
  unfold MtB.filterEnds
  split
  · rfl
  · rfl
  · simp [filterE_all p _ h, bind, Except.bind, pure, Except.pure]

theorem mapStep_none (s : MtB.Step) : MtB.mapStep noLimits s = .ok s := by
  unfold MtB.mapStep noLimits
  simp only [filterEnds_all (MtB.keepMaxCurrent none) s (fun _ => rfl), filterEnds_all (MtB.keepMinCurrent none) s (fun _ => rfl),
    filterEnds_all (MtB.keepMaxVoltage none) s (fun _ => rfl), filterEnds_all (MtB.keepMinVoltage none) s (fun _ => rfl),
    bind, Except.bind]

theorem mapE_id (l : List MtB.Step) : MtB.mapE (MtB.mapStep noLimits) l = .ok l := by
  induction l with
  | nil => rfl
  | cons a as ih => simp [MtB.mapE, mapStep_none, ih, bind, Except.bind, pure, Except.pure]

theorem measures_types (s : MtB.Step) (h : Measures s) :
    s.stepType ≠ "Do 1" ∧ s.stepType ≠ "Do 2" ∧ s.stepType ≠ "Loop 1" ∧ s.stepType ≠ "Loop 2" ∧
      s.stepType ≠ "AdvCycle" := by
  obtain ⟨h, _⟩ := h
  rcases h with h | h | h <;> rw [h] <;> decide

theorem partLoop_plain (l : List MtB.Step) (st : MtB.PState) (i : Nat) (h : ∀ s ∈ l, Measures s) :
    MtB.partLoop st i l = .ok st := by
  induction l generalizing i with
  | nil => rfl
  | cons s ss ih =>
    obtain ⟨h1, h2, h3, h4, h5⟩ := measures_types s (h s (by simp))
    have hs : MtB.partStep st i s = .ok st := by
      unfold MtB.partStep
      rw [if_neg h1, if_neg h2, if_neg (fun hh => h3 hh.1)]
    simp [MtB.partLoop, hs, bind, Except.bind, ih (i + 1) (fun t ht => h t (by simp [ht]))]

theorem partition_plain (l : List MtB.Step) (h : ∀ s ∈ l, Measures s) (hn : l ≠ []) :
    MtB.partition l = .ok [{ num := 1, steps := l, offset := 0, loops := false, numLoops := 0 }] := by
  have hp : 0 < l.length := List.length_pos_iff.mpr hn
  unfold MtB.partition
  simp [partLoop_plain l _ 0 h, bind, Except.bind, hp, MtB.buildTechniques, pure, Except.pure]
  omega

/-- the numbered steps of a plain procedure -/
def entries : Nat → List MtB.Step → List MtB.Numbered
  | _, [] => []
  | i, s :: ss => { num := (i : Int) + 1, step := s, parts := [s], seqs := [(i : Int)] } :: entries (i + 1) ss

theorem partsOf_plain (s : MtB.Step) (n : Int) (h : Measures s) : MtB.partsOf s n = .ok [s] := by
  obtain ⟨h1, h2, h3, h4, h5⟩ := measures_types s h
  unfold MtB.partsOf MtB.isOpen MtB.isClose
  simp [h1, h2, h3, h4, h5, MtB.splitStep, h.2]

theorem numberSteps_plain (l : List MtB.Step) (i : Nat) (h : ∀ s ∈ l, Measures s) :
    MtB.numberSteps ((i : Int) + 1) (i : Int) l = .ok (entries i l) := by
  induction l generalizing i with
  | nil => rfl
  | cons s ss ih =>
    have := ih (i + 1) (fun t ht => h t (by simp [ht]))
    push_cast at this
    simp [MtB.numberSteps, partsOf_plain s _ (h s (by simp)), this, bind, Except.bind, pure, Except.pure, entries,
      MtB.seqNumsOf]

theorem seqNums_plain (l : List MtB.Step) (i k : Nat) :
    MtB.seqNumsByStep (entries i l) ((k : Int) + 1) = if i ≤ k ∧ k < i + l.length then some [(k : Int)] else none := by
  induction l generalizing i with
  | nil => simp [MtB.seqNumsByStep, entries]
  | cons s ss ih =>
    have := ih (i + 1)
    unfold MtB.seqNumsByStep at this ⊢
    simp only [entries, List.find?_cons]
    by_cases hk : i = k
    · subst hk; simp
    · have hf : ((i : Int) + 1 == (k : Int) + 1) = false := by simp; omega
      simp only [hf]
      rw [this]
      simp only [List.length_cons]
      congr 1
      exact propext (by omega)

theorem seqNums_other (l : List MtB.Step) (i : Nat) (t : Int) (h : t ≤ 0) :
    MtB.seqNumsByStep (entries i l) t = none := by
  induction l generalizing i with
  | nil => rfl
  | cons s ss ih =>
    have := ih (i + 1)
    unfold MtB.seqNumsByStep at this ⊢
    simp only [entries, List.find?_cons]
    have hf : ((i : Int) + 1 == t) = false := by simp; omega
    simp only [hf]
    exact this

theorem buildSeqs_plain (all : List MtB.Numbered) (hi e : Int) (l : List MtB.Step) (i : Nat) (seqs : List MtB.Seq)
    (h : ∀ s ∈ l, Measures s) (hb : MtB.buildSeqs all hi e 0 none (entries i l) = .ok seqs) :
    Rows (fun k s q => MtB.convertPart (MtB.seqNumsByStep all) ((k : Int) + 1) 0 hi e s (k : Int) = .ok q) i l seqs := by
  induction l generalizing i seqs with
  | nil =>
    simp [entries, MtB.buildSeqs] at hb
    subst hb
    trivial
  | cons s ss ih =>
    obtain ⟨h1, h2, h3, h4, h5⟩ := measures_types s (h s (by simp))
    simp only [entries, MtB.buildSeqs] at hb
    rw [if_neg (by simp [MtB.isOpen, h1, h2]), if_neg h5, if_neg (by simp [MtB.isClose, h3, h4])] at hb
    simp only [MtB.convertParts, bind, Except.bind] at hb
    split at hb
    · cases hb
    rename_i a ha
    split at ha
    · cases ha
    rename_i q hq
    cases ha
    split at hb
    · cases hb
    rename_i rest hr
    cases hb
    exact ⟨hq, ih (i + 1) rest (fun t ht => h t (by simp [ht])) hr⟩

/-- what converting a plain procedure gives: one technique with one sequence per step -/
theorem convert_plain (body : List MtB.Step) (last : MtB.Step) (r : List (MtB.Converted × List MtB.Seq) × List CycleRules.Rules)
    (h : ∀ s ∈ body, Measures s) (hc : MtB.convert noLimits (body ++ [last]) = .ok r) :
    ∃ c seqs, r.1 = [(c, seqs)] ∧ c.tech.loops = false ∧
      Rows (fun k s q => MtB.convertPart (MtB.seqNumsByStep (entries 0 body)) ((k : Int) + 1) 0 ((body.length : Int) + 1)
        ((body.length : Int) + 1) s (k : Int) = .ok q) 0 body seqs := by
  unfold MtB.convert at hc
  simp only [mapE_id, bind, Except.bind, List.getLast?_concat, List.dropLast_concat] at hc
  split at hc
  · cases hc
  have hne : body ≠ [] := by
    rintro rfl
    simp [MtB.partition, MtB.partLoop, bind, Except.bind] at hc
  rw [partition_plain body h hne] at hc
  have hnum := numberSteps_plain body 0 h
  simp only [MtB.mapE, MtB.convertSteps, bind, Except.bind, pure, Except.pure] at hc
  simp only [Nat.cast_zero, zero_add] at hnum hc
  rw [hnum] at hc
  simp only at hc
  split at hc
  · cases hc
  rename_i a ha
  split at ha
  · cases ha
  rename_i b hb
  split at hb
  · cases hb
  rename_i b' hb'
  split at hb'
  · cases hb'
  rename_i seqs hseqs
  cases hb'
  cases hb
  cases ha
  split at hc
  · cases hc
  cases hc
  refine ⟨_, seqs, rfl, rfl, ?_⟩
  have hlen : (((body ++ [last]).length : Nat) : Int) = (body.length : Int) + 1 := by simp
  rw [hlen] at hseqs
  exact buildSeqs_plain _ _ _ body 0 seqs h hseqs

/-! ### back to Maccor -/

theorem revPass_plain (l : List BtM.BSeq) (i : Nat) (h : ∀ q ∈ l, q.ctrlType ≠ "Loop") :
    BtM.revPass i l = .ok { ranges := [], active := [], cur := none } := by
  induction l generalizing i with
  | nil => rfl
  | cons q qs ih =>
    have ha : BtM.isActive q = false := by simp [BtM.isActive, h q (by simp)]
    simp [BtM.revPass, ih (i + 1) (fun t ht => h t (by simp [ht])), bind, Except.bind, BtM.revStep, ha]

theorem numPass_plain (seqs l : List BtM.BSeq) (st : BtM.NumState) (i : Nat) (h : ∀ q ∈ l, q.ctrlType ≠ "Loop")
    (hb : st.blanks = []) (hl : st.loopSteps = []) (hcur : st.cur = i + 1)
    (hn : ∀ j, BtM.numOf st.nums j = if j < i then some (j + 1) else none) :
    ∃ st', BtM.numPass seqs [] st i l = .ok st' ∧ st'.blanks = [] ∧ st'.loopSteps = [] ∧ st'.cur = i + l.length + 1 ∧
      ∀ j, BtM.numOf st'.nums j = if j < i + l.length then some (j + 1) else none := by
  induction l generalizing i st with
  | nil => exact ⟨st, rfl, hb, hl, by simpa using hcur, by simpa using hn⟩
  | cons q qs ih =>
    have hq := h q (by simp)
    have hstep : BtM.numStep seqs [] st i q = .ok { st with loopSteps := st.loopSteps, nums := (i, st.cur) :: st.nums, cur := st.cur + 1 } := by
      simp [BtM.numStep, hq]
    obtain ⟨st', h1, h2, h3, h4, h5⟩ := ih { st with loopSteps := st.loopSteps, nums := (i, st.cur) :: st.nums, cur := st.cur + 1 } (i + 1)
      (fun t ht => h t (by simp [ht])) hb hl (by simp [hcur]) (by
        intro j
        rw [Props.BiologicToMaccor.numOf_cons, hn j]
        split
        · rename_i hj
          subst hj
          simp [hcur]
        · rename_i hj
          congr 1
          exact propext (by omega))
    refine ⟨st', ?_, h2, h3, ?_, ?_⟩
    · simp [BtM.numPass, hstep, bind, Except.bind, h1]
    · simp [h4]; omega
    · intro j
      rw [h5 j, List.length_cons]
      congr 1
      exact propext (by omega)

theorem gotoPass_plain (l : List BtM.BSeq) (i : Nat) (h : ∀ q ∈ l, q.ctrlType ≠ "Loop") :
    BtM.gotoPass [] [] none i l = true := by
  induction l generalizing i with
  | nil => rfl
  | cons q qs ih =>
    simp [BtM.gotoPass, h q (by simp), ih (i + 1) (fun t ht => h t (by simp [ht])), BtM.gotoOk, BtM.rangeOf]

theorem emit_plain (st : BtM.NumState) (i : Nat) (q : BtM.BSeq) (hb : st.blanks = []) (h : q.ctrlType ≠ "Loop") :
    BtM.emit [] st i q = (BtM.createStep (BtM.numOf st.nums) st.loopSteps st.cur i q).map (fun s => [s]) := by
  unfold BtM.emit
  simp only [hb, List.not_mem_nil, if_false, h, false_and, List.nil_append, bind, Except.bind]
  cases BtM.createStep (BtM.numOf st.nums) st.loopSteps st.cur i q <;> rfl

theorem emitPass_plain (st : BtM.NumState) (l : List BtM.BSeq) (out : List BtM.MStep) (i : Nat) (hb : st.blanks = [])
    (hl : ∀ q ∈ l, q.ctrlType ≠ "Loop")
    (h : Rows (fun k q t => BtM.createStep (BtM.numOf st.nums) st.loopSteps st.cur k q = .ok t) i l out) :
    BtM.emitPass [] st i l = .ok out := by
  induction l generalizing i out with
  | nil => cases out with
    | nil => rfl
    | cons _ _ => exact h.elim
  | cons q qs ih => cases out with
    | nil => exact h.elim
    | cons t ts =>
      have he := emit_plain st i q hb (hl q (by simp))
      rw [h.1] at he
      simp [BtM.emitPass, he, Except.map, bind, Except.bind, ih ts (i + 1) (fun a ha => hl a (by simp [ha])) h.2, pure, Except.pure]

theorem emitPass_plain_ok (st : BtM.NumState) (l : List BtM.BSeq) (out : List BtM.MStep) (i : Nat) (hb : st.blanks = [])
    (hl : ∀ q ∈ l, q.ctrlType ≠ "Loop") (h : BtM.emitPass [] st i l = .ok out) :
    Rows (fun k q t => BtM.createStep (BtM.numOf st.nums) st.loopSteps st.cur k q = .ok t) i l out := by
  induction l generalizing i out with
  | nil => cases h; trivial
  | cons q qs ih =>
    simp only [BtM.emitPass, emit_plain st i q hb (hl q (by simp)), bind, Except.bind] at h
    split at h
    · cases h
    rename_i a ha
    split at h
    · cases h
    rename_i b hb'
    cases h
    cases hc : BtM.createStep (BtM.numOf st.nums) st.loopSteps st.cur i q with
    | error e => rw [hc] at ha; cases ha
    | ok t =>
      rw [hc] at ha
      cases ha
      exact ⟨hc, ih b (i + 1) (fun a ha => hl a (by simp [ha])) hb'⟩

/-- the numbers of the steps of a procedure without loops -/
def numbers (n : Nat) (j : Nat) : Option Nat := if j < n then some (j + 1) else none

/-- without loops every sequence becomes the step whose number is its own plus 1, and the end
step follows -/
theorem createSteps_plain (l : List BtM.BSeq) (steps : List BtM.MStep) (hl : ∀ q ∈ l, q.ctrlType ≠ "Loop") :
    BtM.createSteps l = .ok steps ↔ ∃ out, steps = out ++ [BtM.plain "  End   "] ∧
      Rows (fun k q t => BtM.createStep (numbers l.length) [] (l.length + 1) k q = .ok t) 0 l out := by
  obtain ⟨st, h1, h2, h3, h4, h5⟩ := numPass_plain l l { cur := 1, loopSteps := [], blanks := [], nums := [] } 0 hl rfl rfl rfl
    (by intro j; simp [BtM.numOf])
  have hnum : BtM.numOf st.nums = numbers l.length := by
    funext j
    rw [h5 j]
    simp [numbers]
  have hcur : st.cur = l.length + 1 := by rw [h4]; omega
  have hcs : BtM.createSteps l = (BtM.emitPass [] st 0 l).map (fun o => o ++ [BtM.plain "  End   "]) := by
    unfold BtM.createSteps
    simp only [revPass_plain l 0 hl, bind, Except.bind, BtM.startsOk, List.all_nil, h1, h2, gotoPass_plain l 0 hl]
    rw [if_neg (by decide), if_neg (by decide)]
    cases BtM.emitPass [] st 0 l <;> rfl
  rw [hcs]
  constructor
  · intro h
    cases he : BtM.emitPass [] st 0 l with
    | error e => rw [he] at h; cases h
    | ok out =>
      rw [he] at h
      cases h
      have := emitPass_plain_ok st l out 0 h2 hl he
      rw [hnum, h3, hcur] at this
      exact ⟨out, rfl, this⟩
  · rintro ⟨out, rfl, h⟩
    rw [← hnum, ← h3, ← hcur] at h
    rw [emitPass_plain st l out 0 h2 hl h]
    rfl

/-! ### one step there and back -/

theorem convertPart_spec (nums : Int → Option (List Int)) (n lo hi e : Int) (s : MtB.Step) (k : Int) (q : MtB.Seq)
    (h : MtB.convertPart nums n lo hi e s k = .ok q) :
    ∃ c, MtB.control s = .ok c ∧ q.ctrlType = c.1 ∧ q.value = c.2.1 ∧ q.charge = c.2.2 ∧
      s.ends.toList.length ≤ 3 ∧ List.Forall₂ (fun a l => MtB.convertEnd nums n k lo hi e a = .ok l) s.ends.toList q.lims ∧
      s.reports.toList.length ≤ 3 ∧ List.Forall₂ (fun a l => MtB.convertReport a = .ok l) s.reports.toList q.recs := by
  unfold MtB.convertPart at h
  simp only [bind, Except.bind] at h
  split at h
  · cases h
  rename_i c hc
  split at h
  · cases h
  split at h
  · cases h
  rename_i lims hl
  split at h
  · cases h
  split at h
  · cases h
  rename_i recs hr
  cases h
  exact ⟨c, hc, rfl, rfl, rfl, by omega, Props.MtbPartition.mapE_forall _ _ _ hl, by omega,
    Props.MtbPartition.mapE_forall _ _ _ hr⟩

theorem mapE_of_forall {α β : Type} (f : α → Except Err β) (l : List α) (m : List β)
    (h : List.Forall₂ (fun a b => f a = .ok b) l m) : MtB.mapE f l = .ok m := by
  induction h with
  | nil => rfl
  | cons h1 _ ih => simp [MtB.mapE, h1, ih, bind, Except.bind, pure, Except.pure]

theorem padded_refl (a : String) : Padded a a := ⟨0, 0, by simp⟩

theorem time_back (t : Time) (h : Fine 0 (.time t)) :
    ∃ u, backTime (convertTime t).1 (convertTime t).2 = .ok u ∧ seconds u = seconds t := by
  obtain ⟨⟨hh, m, h1, h2⟩, h3⟩ := h
  have : t = ⟨hh, m, t.s⟩ := by rw [← h1, ← h2]
  rw [this] at h3 ⊢
  exact Props.Units.C29_time_back_partial hh m t.s h3

theorem control_cases (s : MtB.Step) (c : String × Option (Rat × String) × Bool) (h : MtB.control s = .ok c) :
    (s.stepType = "Rest" ∧ c = ("Rest", none, true)) ∨
    ((s.stepType = "Charge" ∨ s.stepType = "Dischrge") ∧ s.stepMode = "Current" ∧
      ∃ d, s.stepValue = some (.num d) ∧ c = ("CC", some (convertAmps d), decide (s.stepType = "Charge"))) ∨
    ((s.stepType = "Charge" ∨ s.stepType = "Dischrge") ∧ s.stepMode = "Voltage" ∧
      ∃ d, s.stepValue = some (.num d) ∧ c = ("CV", some (convertVolts d), decide (s.stepType = "Charge"))) := by
  unfold MtB.control at h
  split at h
  · rename_i ht
    cases h
    exact Or.inl ⟨ht, rfl⟩
  split at h
  · cases h
  rename_i ht hcd
  have hcd' : s.stepType = "Charge" ∨ s.stepType = "Dischrge" := by tauto
  split at h
  · rename_i hm
    split at h
    · cases h
    rename_i v hv
    cases v with
    | num d =>
      cases h
      exact Or.inr (Or.inl ⟨hcd', hm, d, hv, rfl⟩)
    | time t => cases h
    | text t => cases h
  split at h
  · rename_i hm
    split at h
    · cases h
    rename_i v hv
    cases v with
    | num d =>
      cases h
      exact Or.inr (Or.inr ⟨hcd', hm, d, hv, rfl⟩)
    | time t => cases h
    | text t => cases h
  · cases h

/-- where an end entry leads, there and back, in a procedure of `n` measuring steps -/
theorem target_back (body : List MtB.Step) (i : Nat) (a : MtB.EndEntry) (g : Int) (l : BtM.BLim)
    (hi : i < body.length)
    (hr : ¬ (a.step < 0 ∨ (a.step > (body.length : Int) + 1 ∧ a.step ≠ (body.length : Int) + 1)))
    (hg : MtB.gotoSeq (MtB.seqNumsByStep (entries 0 body)) ((i : Int) + 1) (i : Int) ((body.length : Int) + 1) a.step = .ok g)
    (hend : a.step = (body.length : Int) + 1 → i + 1 = body.length)
    (hact : l.action = if decide (a.step ≠ (i : Int) + 1 + 1) then "Goto sequence" else "Next sequence")
    (hgo : l.goto = g.toNat) :
    ∃ t, BtM.endTarget (numbers body.length) [] (body.length + 1) i (i + 1) l = .ok t ∧ (t : Int) = a.step := by
  by_cases hn : a.step = (i : Int) + 1 + 1
  · refine ⟨i + 1 + 1, ?_, by rw [hn]; push_cast; ring⟩
    unfold BtM.endTarget
    rw [hact, hn]
    simp
  · have hne : a.step ≠ (body.length : Int) + 1 := by
      intro he
      apply hn
      have := hend he
      rw [he]
      omega
    unfold MtB.gotoSeq at hg
    rw [if_neg hn, if_neg hne] at hg
    obtain ⟨k, hk⟩ : ∃ k : Nat, a.step = (k : Int) + 1 := by
      by_cases h0 : a.step ≤ 0
      · rw [seqNums_other _ _ _ h0] at hg
        cases hg
      · exact ⟨(a.step - 1).toNat, by omega⟩
    have hkn : k < body.length := by omega
    rw [hk, seqNums_plain, if_pos (by omega)] at hg
    cases hg
    refine ⟨k + 1, ?_, by rw [hk]; push_cast; rfl⟩
    unfold BtM.endTarget
    have hgt : l.goto = k := by rw [hgo]; rfl
    rw [hact, hgt]
    simp [hn, numbers, hkn]

theorem end_back (body : List MtB.Step) (i : Nat) (a : MtB.EndEntry) (l : MtB.Lim) (hi : i < body.length)
    (h : MtB.convertEnd (MtB.seqNumsByStep (entries 0 body)) ((i : Int) + 1) (i : Int) 0 ((body.length : Int) + 1)
      ((body.length : Int) + 1) a = .ok l)
    (hf : Fine (decimals a.endType) a.value) (hc : a.endType ≠ "Current")
    (hend : a.step = (body.length : Int) + 1 → i + 1 = body.length) :
    ∃ f, BtM.convertLim (numbers body.length) [] (body.length + 1) i (i + 1) (asLim l) = .ok f ∧ SameEnd a f := by
  unfold MtB.convertEnd at h
  split at h
  · cases h
  rename_i hr
  simp only [bind, Except.bind] at h
  split at h
  · cases h
  rename_i g hg
  split at h
  · rename_i ht
    split at h
    · cases h
    rename_i ho
    split at h
    · cases h
    rename_i t htv
    cases h
    obtain ⟨tt, h1, h2⟩ := target_back body i a g (asLim { type := "Time", comp := ">", value := (convertTime t).1, unit := (convertTime t).2, goto := g, jumps := decide (a.step ≠ (i : Int) + 1 + 1) }) hi hr hg hend rfl rfl
    cases hv : a.value with
    | num d => rw [hv] at htv; cases htv
    | text d => rw [hv] at htv; cases htv
    | time t' =>
      rw [hv] at htv hf
      cases htv
      obtain ⟨u, hu, hs⟩ := time_back t hf
      refine ⟨{ endType := "StepTime", oper := " = ", value := .time u, step := tt }, ?_, ?_, ?_, ?_, h2⟩
      · unfold BtM.convertLim
        rw [h1]
        simp [BtM.operOf, BtM.endValue, asLim, hu, bind, Except.bind, pure, Except.pure]
      · rw [ht]; exact padded_refl _
      · rw [not_not.mp ho]; exact ⟨1, 1, rfl⟩
      · rw [hv]; exact hs
  split at h
  · rename_i ht
    split at h
    · cases h
    rename_i comp hcomp
    split at h
    · cases h
    rename_i d hd
    cases h
    obtain ⟨tt, h1, h2⟩ := target_back body i a g (asLim { type := "Ecell", comp := comp, value := (convertVolts d).1, unit := (convertVolts d).2, goto := g, jumps := decide (a.step ≠ (i : Int) + 1 + 1) }) hi hr hg hend rfl rfl
    cases hv : a.value with
    | time d => rw [hv] at hd; cases hd
    | text d => rw [hv] at hd; cases hd
    | num d' =>
      rw [hv] at hd hf
      cases hd
      rw [ht] at hf
      have hvb := Props.Units.C29_volts_back d hf
      unfold MtB.operatorMap at hcomp
      split at hcomp
      · rename_i ho
        cases hcomp
        refine ⟨{ endType := "Voltage ", oper := ">= ", value := .num d.value, step := tt }, ?_, ?_, ?_, ?_, h2⟩
        · unfold BtM.convertLim
          rw [h1]
          simp [BtM.operOf, BtM.endValue, asLim, hvb, bind, Except.bind, pure, Except.pure]
        · rw [ht]; exact ⟨0, 1, rfl⟩
        · rw [ho]; exact ⟨0, 1, rfl⟩
        · rw [hv]; rfl
      split at hcomp
      · rename_i ho
        cases hcomp
        refine ⟨{ endType := "Voltage ", oper := "<= ", value := .num d.value, step := tt }, ?_, ?_, ?_, ?_, h2⟩
        · unfold BtM.convertLim
          rw [h1]
          simp [BtM.operOf, BtM.endValue, asLim, hvb, bind, Except.bind, pure, Except.pure]
        · rw [ht]; exact ⟨0, 1, rfl⟩
        · rw [ho]; exact ⟨0, 1, rfl⟩
        · rw [hv]; rfl
      · cases hcomp
  · cases h

theorem report_back (a : MtB.Report) (r : MtB.Rec) (h : MtB.convertReport a = .ok r)
    (hf : Fine (decimals a.reportType) a.value) :
    ∃ p, BtM.convertRec (asRec r) = .ok p ∧ SameReport a p := by
  unfold MtB.convertReport at h
  simp only [bind, Except.bind] at h
  split at h
  · rename_i ht
    split at h
    · cases h
    rename_i t htv
    cases h
    cases hv : a.value with
    | num d => rw [hv] at htv; cases htv
    | text d => rw [hv] at htv; cases htv
    | time t' =>
      rw [hv] at htv hf
      cases htv
      obtain ⟨u, hu, hs⟩ := time_back t hf
      refine ⟨("StepTime", .time u), ?_, ?_, ?_⟩
      · simp [BtM.convertRec, asRec, hu, bind, Except.bind, pure, Except.pure]
      · rw [ht]; exact padded_refl _
      · rw [hv]; exact hs
  split at h
  · rename_i ht
    split at h
    · cases h
    rename_i d hd
    cases h
    cases hv : a.value with
    | time d => rw [hv] at hd; cases hd
    | text d => rw [hv] at hd; cases hd
    | num d' =>
      rw [hv] at hd hf
      cases hd
      rw [ht] at hf
      have hvb := Props.Units.C29_volts_back d hf
      refine ⟨("Voltage ", .num d.value), ?_, ?_, ?_⟩
      · simp [BtM.convertRec, asRec, hvb, bind, Except.bind, pure, Except.pure]
      · rw [ht]; exact ⟨0, 1, rfl⟩
      · rw [hv]; rfl
  split at h
  · rename_i ht
    split at h
    · cases h
    rename_i d hd
    cases h
    cases hv : a.value with
    | time d => rw [hv] at hd; cases hd
    | text d => rw [hv] at hd; cases hd
    | num d' =>
      rw [hv] at hd hf
      cases hd
      rw [ht] at hf
      have hvb := Props.Units.C29_amps_back d hf
      refine ⟨("Current ", .num d.value), ?_, ?_, ?_⟩
      · simp [BtM.convertRec, asRec, hvb, bind, Except.bind, pure, Except.pure]
      · rw [ht]; exact ⟨0, 1, rfl⟩
      · rw [hv]; rfl
  · cases h

theorem forall₂_back {α β γ : Type} (R : α → β → Prop) (f : β → Except Err γ) (S : α → γ → Prop) (l : List α) (m : List β)
    (h : List.Forall₂ R l m) (hb : ∀ a ∈ l, ∀ b, R a b → ∃ c, f b = .ok c ∧ S a c) :
    ∃ o, MtB.mapE f m = .ok o ∧ List.Forall₂ S l o := by
  induction h with
  | nil => exact ⟨[], rfl, .nil⟩
  | cons h1 _ ih =>
    obtain ⟨c, hc, hs⟩ := hb _ (by simp) _ h1
    obtain ⟨o, ho, hss⟩ := ih (fun a ha b => hb a (by simp [ha]) b)
    exact ⟨c :: o, by simp [MtB.mapE, hc, ho, bind, Except.bind, pure, Except.pure], .cons hs hss⟩

theorem mapE_map {α β γ : Type} (f : β → Except Err γ) (g : α → β) (l : List α) :
    MtB.mapE f (l.map g) = MtB.mapE (fun a => f (g a)) l := by
  induction l with
  | nil => rfl
  | cons a as ih => simp [MtB.mapE, ih]

/-- a rest or discharge step that ends at voltages and times comes back as it was -/
theorem step_back (body : List MtB.Step) (i : Nat) (s : MtB.Step) (q : MtB.Seq) (hi : i < body.length)
    (h : MtB.convertPart (MtB.seqNumsByStep (entries 0 body)) ((i : Int) + 1) 0 ((body.length : Int) + 1)
      ((body.length : Int) + 1) s (i : Int) = .ok q)
    (hf : FineStep s) (hch : s.stepType ≠ "Charge")
    (hends : ∀ e ∈ s.ends.toList, e.endType ≠ "Current" ∧ (e.step = (body.length : Int) + 1 → i + 1 = body.length)) :
    ∃ t, BtM.createStep (numbers body.length) [] (body.length + 1) i (asSeq q) = .ok t ∧ SameStep s t := by
  obtain ⟨c, hc, h1, h2, h3, h4, h5, h6, h7⟩ := convertPart_spec _ _ _ _ _ s _ q h
  obtain ⟨hf1, hf2, hf3⟩ := hf
  obtain ⟨eo, he, hes⟩ := forall₂_back _ (fun l => BtM.convertLim (numbers body.length) [] (body.length + 1) i (i + 1) (asLim l)) SameEnd _ _ h5
    (fun a ha b hb => end_back body i a b hi hb (hf2 a ha) (hends a ha).1 (hends a ha).2)
  obtain ⟨ro, hr, hrs⟩ := forall₂_back _ (fun l => BtM.convertRec (asRec l)) SameReport _ _ h7
    (fun a ha b hb => report_back a b hb (hf3 a ha))
  have hl4 : ¬ (q.lims.map asLim).length > 3 := by rw [List.length_map, ← h5.length_eq]; omega
  have hl6 : ¬ (q.recs.map asRec).length > 3 := by rw [List.length_map, ← h7.length_eq]; omega
  have key : ∀ b, BtM.control (asSeq q) = .ok b →
      BtM.createStep (numbers body.length) [] (body.length + 1) i (asSeq q) =
        .ok { stepType := b.1, stepMode := b.2.1, value := b.2.2, ends := eo, reports := ro } := by
    intro b hb
    unfold BtM.createStep
    have hni : numbers body.length i = some (i + 1) := by simp [numbers, hi]
    rw [hni]
    simp only [hb, bind, Except.bind]
    rw [if_neg (by unfold asSeq; cases q.charge <;> simp)]
    rw [if_neg (by exact hl4), show (asSeq q).lims = q.lims.map asLim from rfl, mapE_map, he]
    simp only
    rw [if_neg (by exact hl6), show (asSeq q).recs = q.recs.map asRec from rfl, mapE_map, hr]
    rfl
  rcases control_cases s c hc with ⟨ht, rfl⟩ | ⟨ht, hm, d, hd, rfl⟩ | ⟨ht, hm, d, hd, rfl⟩
  · refine ⟨_, key ("  Rest  ", "        ", none) ?_, ?_, ?_, ?_, hes, hrs⟩
    · simp only at h1
      simp [BtM.control, asSeq, h1]
    · rw [ht]; exact ⟨2, 2, rfl⟩
    · intro hne; exact absurd ht hne
    · intro hne; exact absurd ht hne
  · have hds : s.stepType = "Dischrge" := by tauto
    have hv := Props.Units.C29_amps_back d (by have := hf1 _ hd; rw [hm] at this; exact this)
    refine ⟨_, key ("Dischrge ", "Current ", some d.value) ?_, ?_, ?_, ?_, hes, hrs⟩
    · simp only [hds] at h1 h2 h3
      simp [BtM.control, asSeq, h1, h2, h3, hv, bind, Except.bind, pure, Except.pure, BtM.chargeType]
    · rw [hds]; exact ⟨0, 1, rfl⟩
    · intro _; rw [hm]; exact ⟨0, 1, rfl⟩
    · intro _; exact ⟨d, hd, rfl⟩
  · have hds : s.stepType = "Dischrge" := by tauto
    have hv := Props.Units.C29_volts_back d (by have := hf1 _ hd; rw [hm] at this; exact this)
    refine ⟨_, key ("Dischrge ", "Voltage ", some d.value) ?_, ?_, ?_, ?_, hes, hrs⟩
    · simp only [hds] at h1 h2 h3
      simp [BtM.control, asSeq, h1, h2, h3, hv, bind, Except.bind, pure, Except.pure, BtM.chargeType]
    · rw [hds]; exact ⟨0, 1, rfl⟩
    · intro _; rw [hm]; exact ⟨0, 1, rfl⟩
    · intro _; exact ⟨d, hd, rfl⟩

end Beep.Proof.RoundTrip
