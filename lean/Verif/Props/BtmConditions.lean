import Verif.Props.BiologicToMaccor
import Verif.Spec.BtmConditions
import Verif.Proof.MaccorProcedure
/-
C70: the limits, record rules and set points of a Modulo Bat technique are those of the Maccor
procedure.
-/
namespace Beep.Props.BtmConditions
open Beep Beep.Units Beep.Pandas Beep.BtM Beep.Spec.BtM Beep.Spec.BtmConditions Beep.Spec.Units
open Beep.MtB (mapE)
open Beep.Props.MtbPartition (mapE_forall)
open Beep.Props.BiologicToMaccor

theorem volts_size (v : Rat) (u : String) (x : Rat) (h : backVolts v u = .ok x) :
    ∃ f, unitSize .voltage u = some f ∧ x = v * f := by
  unfold backVolts at h
  split at h
  · rename_i hu; cases h; subst hu; exact ⟨1, rfl, by ring⟩
  split at h
  · rename_i hu; cases h; subst hu; exact ⟨_, rfl, by ring⟩
  · cases h

theorem amps_size (v : Rat) (u : String) (x : Rat) (h : backAmps v u = .ok x) :
    ∃ f, unitSize .current u = some f ∧ x = v * f := by
  unfold backAmps at h
  split at h
  · rename_i hu; cases h; subst hu; exact ⟨1, rfl, by ring⟩
  split at h
  · rename_i hu; cases h; subst hu; exact ⟨_, rfl, by ring⟩
  split at h
  · rename_i hu
    cases h
    rcases hu with hu | hu <;> subst hu <;> exact ⟨_, rfl, by ring⟩
  split at h
  · rename_i hu; cases h; subst hu; exact ⟨_, rfl, by ring⟩
  split at h
  · rename_i hu; cases h; subst hu; exact ⟨_, rfl, by ring⟩
  · cases h

theorem watts_size (v : Rat) (u : String) (x : Rat) (h : backWatts v u = .ok x) :
    ∃ f, unitSize .power u = some f ∧ x = v * f := by
  unfold backWatts at h
  split at h
  · rename_i hu; cases h; subst hu; exact ⟨1, rfl, by ring⟩
  split at h
  · rename_i hu; cases h; subst hu; exact ⟨_, rfl, by ring⟩
  split at h
  · rename_i hu
    cases h
    rcases hu with hu | hu <;> subst hu <;> exact ⟨_, rfl, by ring⟩
  · cases h

theorem ohms_size (v : Rat) (u : String) (x : Rat) (h : backOhms v u = .ok x) :
    ∃ f, unitSize .resistance u = some f ∧ x = v * f := by
  unfold backOhms at h
  split at h
  · rename_i hu; cases h; subst hu; exact ⟨_, rfl, by ring⟩
  split at h
  · rename_i hu; cases h; subst hu; exact ⟨_, rfl, by ring⟩
  split at h
  · rename_i hu; cases h; subst hu; exact ⟨1, rfl, by ring⟩
  split at h
  · rename_i hu; cases h; subst hu; exact ⟨_, rfl, by ring⟩
  split at h
  · rename_i hu
    cases h
    rcases hu with hu | hu <;> subst hu <;> exact ⟨_, rfl, by ring⟩
  · cases h

/-- a number close to an integer rounds to it -/
theorem roundEven_near (x : Rat) (k : Int) (h1 : (k : Rat) - 1 / 2 < x) (h2 : x < k + 1 / 2) :
    roundEven x = k := by
  have h := Beep.Proof.MaccorProcedure.nearest_bounds x
  unfold Beep.MaccorProcedure.nearest at h
  have a : (roundEven x : Rat) < (k + 1 : Int) := by push_cast; linarith [h.1]
  have b : ((k - 1 : Int) : Rat) < roundEven x := by push_cast; linarith [h.2]
  have a' : roundEven x < k + 1 := by exact_mod_cast a
  have b' : k - 1 < roundEven x := by exact_mod_cast b
  omega

theorem time_size (v : Rat) (u : String) (t : Time) (h : backTime v u = .ok t) :
    ∃ f, unitSize .time u = some f ∧ Near .time u (v * f) (seconds t) := by
  unfold backTime at h
  split at h
  · rename_i hu; cases h; subst hu; exact ⟨3600, rfl, Or.inl (by unfold seconds; ring)⟩
  split at h
  · rename_i hu; cases h; subst hu; exact ⟨60, rfl, Or.inl (by unfold seconds; ring)⟩
  split at h
  · rename_i hu; cases h; subst hu; exact ⟨1, rfl, Or.inl (by unfold seconds; ring)⟩
  split at h
  · rename_i hu
    split at h
    · cases h
    rename_i hm
    cases h
    subst hu
    refine ⟨_, rfl, Or.inr ⟨rfl, rfl, ?_⟩⟩
    unfold mod10 at hm
    have hf1 : ((v / 10).floor : Rat) ≤ v / 10 := Rat.floor_le _
    have hf2 : v / 10 < ((v / 10).floor : Rat) + 1 := by
      have := Rat.lt_floor_add_one (v / 10)
      push_cast at this
      exact this
    generalize (v / 10).floor = k at *
    have hr : ∃ n : Int, roundEven (v / 1000 * 100) = n ∧ -(1 / 100) < (n : Rat) - v / 10 ∧ (n : Rat) - v / 10 < 1 / 100 := by
      by_cases hlo : v - 10 * (k : Rat) < 1 / 10
      · exact ⟨k, roundEven_near _ _ (by linarith) (by linarith), by linarith, by linarith⟩
      · have hhi : v - 10 * (k : Rat) > 99 / 10 := by
          by_contra hc
          exact hm ⟨not_lt.mp hlo, not_lt.mp hc⟩
        refine ⟨k + 1, roundEven_near _ _ ?_ ?_, ?_, ?_⟩ <;> push_cast <;> linarith
    obtain ⟨n, hn, hn1, hn2⟩ := hr
    unfold seconds round2
    rw [hn]
    refine ⟨⟨n, ?_⟩, ?_, ?_⟩
    · ring
    · linarith
    · linarith
  · cases h

theorem operOf_says (l : BLim) (o : String) (h : operOf l = .ok o) (k : Quantity)
    (hk : biologicQuantity l.type = some k) :
    ∃ d, biologicSide l.comp = some d ∧ maccorSide k o = some d := by
  unfold operOf at h
  split at h
  · rename_i hc; cases h; rw [hc]; exact ⟨.below, rfl, by cases k <;> rfl⟩
  split at h
  · rename_i hc
    cases h
    rw [hc.1]
    rw [hc.2] at hk
    cases hk
    exact ⟨.above, rfl, rfl⟩
  split at h
  · rename_i hc; cases h; rw [hc]; exact ⟨.above, rfl, by cases k <;> rfl⟩
  · cases h

theorem endValue_says (l : BLim) (v : String × MVal) (h : endValue l = .ok v) :
    ∃ k u y, biologicQuantity l.type = some k ∧ k ≠ .power ∧ unitSize k l.unit = some u ∧
      maccorQuantity v.1 = some k ∧ maccorValue k v.2 = some y ∧ Near k l.unit (l.value * u) y := by
  unfold endValue at h
  simp only [bind, Except.bind] at h
  split at h
  · rename_i ht
    split at h
    · cases h
    rename_i x hx
    cases h
    obtain ⟨f, hf, hv⟩ := volts_size _ _ _ hx
    refine ⟨.voltage, f, x, ?_, by decide, hf, rfl, rfl, Or.inl hv⟩
    rcases ht with ht | ht <;> rw [ht] <;> rfl
  split at h
  · rename_i ht
    split at h
    · cases h
    rename_i x hx
    cases h
    obtain ⟨f, hf, hv⟩ := time_size _ _ _ hx
    exact ⟨.time, f, _, by rw [ht]; rfl, by decide, hf, rfl, rfl, hv⟩
  split at h
  · rename_i ht
    split at h
    · cases h
    rename_i x hx
    cases h
    obtain ⟨f, hf, hv⟩ := amps_size _ _ _ hx
    exact ⟨.current, f, x, by rw [ht]; rfl, by decide, hf, rfl, rfl, Or.inl hv⟩
  · cases h

theorem convertLim_same (num : Nat → Option Nat) (ls : List Nat) (n i step : Nat) (l : BLim) (e : MEnd)
    (h : convertLim num ls n i step l = .ok e) : SameLimit l e := by
  unfold convertLim at h
  simp only [bind, Except.bind] at h
  split at h
  · cases h
  rename_i o ho
  split at h
  · cases h
  rename_i v hv
  split at h
  · cases h
  cases h
  obtain ⟨k, u, y, h1, h2, h3, h4, h5, h6⟩ := endValue_says l v hv
  obtain ⟨d, hd1, hd2⟩ := operOf_says l o ho k h1
  refine ⟨⟨k, d, l.value * u⟩, ⟨k, d, y⟩, ?_, ?_, rfl, rfl, h6⟩
  · unfold limitSays
    simp [h1, hd1, h3, h2]
  · unfold endSays
    simp [h4, hd2, h5]

theorem convertRec_same (r : BRec) (p : String × MVal) (h : convertRec r = .ok p) : SameRecord r p := by
  have key : ∀ k u y, biologicQuantity r.type = some k → unitSize k r.unit = some u →
      maccorQuantity p.1 = some k → maccorValue k p.2 = some y → Near k r.unit (r.value * u) y → SameRecord r p := by
    intro k u y h1 h2 h3 h4 h5
    refine ⟨k, _, y, ?_, ?_, h5⟩
    · unfold recordSays; simp [h1, h2]
    · unfold reportSays; simp [h3, h4]
  unfold convertRec at h
  simp only [bind, Except.bind] at h
  split at h
  · rename_i ht
    split at h
    · cases h
    rename_i x hx
    cases h
    obtain ⟨f, hf, hv⟩ := time_size _ _ _ hx
    exact key .time f _ (by rw [ht]; rfl) hf rfl rfl hv
  split at h
  · rename_i ht
    split at h
    · cases h
    rename_i x hx
    cases h
    obtain ⟨f, hf, hv⟩ := volts_size _ _ _ hx
    exact key .voltage f x (by rcases ht with ht | ht <;> rw [ht] <;> rfl) hf rfl rfl (Or.inl hv)
  split at h
  · rename_i ht
    split at h
    · cases h
    rename_i x hx
    cases h
    obtain ⟨f, hf, hv⟩ := amps_size _ _ _ hx
    exact key .current f x (by rw [ht]; rfl) hf rfl rfl (Or.inl hv)
  split at h
  · rename_i ht
    split at h
    · cases h
    rename_i x hx
    cases h
    obtain ⟨f, hf, hv⟩ := watts_size _ _ _ hx
    exact key .power f x (by rw [ht]; rfl) hf rfl rfl (Or.inl hv)
  · cases h

theorem control_same (q : BSeq) (s : MStep) (h : BtM.control q = .ok (s.stepType, s.stepMode, s.value)) :
    SameControl q s := by
  obtain ⟨st, sm, sv, se, sr⟩ := s
  unfold BtM.control at h
  simp only [bind, Except.bind] at h
  split at h
  · rename_i ht
    split at h
    · cases h
    rename_i x hx
    cases h
    obtain ⟨f, hf, hv⟩ := amps_size _ _ _ hx
    exact Or.inr ⟨.current, f, by rw [ht]; rfl, rfl, hf, by rw [hv], fun hc => absurd (ht.symm.trans hc) (by decide)⟩
  split at h
  · rename_i ht
    split at h
    · cases h
    rename_i x hx
    cases h
    obtain ⟨f, hf, hv⟩ := volts_size _ _ _ hx
    exact Or.inr ⟨.voltage, f, by rw [ht.1]; rfl, rfl, hf, by rw [hv], fun _ => ht.2⟩
  split at h
  · cases h
  split at h
  · rename_i ht
    split at h
    · cases h
    rename_i x hx
    cases h
    obtain ⟨f, hf, hv⟩ := ohms_size _ _ _ hx
    exact Or.inr ⟨.resistance, f, by rw [ht]; rfl, rfl, hf, by rw [hv], fun hc => absurd (ht.symm.trans hc) (by decide)⟩
  split at h
  · rename_i ht
    split at h
    · cases h
    rename_i x hx
    cases h
    obtain ⟨f, hf, hv⟩ := watts_size _ _ _ hx
    exact Or.inr ⟨.power, f, by rw [ht]; rfl, rfl, hf, by rw [hv], fun hc => absurd (ht.symm.trans hc) (by decide)⟩
  split at h
  · rename_i ht
    cases h
    exact Or.inl ⟨ht, rfl, rfl, rfl⟩
  · cases h

theorem createStep_same (num : Nat → Option Nat) (ls : List Nat) (n i : Nat) (q : BSeq) (s : MStep)
    (h : createStep num ls n i q = .ok s) :
    SameControl q s ∧ List.Forall₂ SameLimit q.lims s.ends ∧ List.Forall₂ SameRecord q.recs s.reports ∧
    q.lims.length ≤ 3 ∧ q.recs.length ≤ 3 := by
  unfold createStep at h
  split at h
  · cases h
  rename_i step hstep
  split at h
  · cases h
  simp only [bind, Except.bind] at h
  split at h
  · cases h
  rename_i c hc
  split at h
  · cases h
  rename_i hl
  split at h
  · cases h
  rename_i ends he
  split at h
  · cases h
  rename_i hr
  split at h
  · cases h
  rename_i reps hp
  cases h
  exact ⟨control_same q _ hc, (mapE_forall _ _ _ he).imp (fun l e => convertLim_same _ _ _ _ _ l e),
    (mapE_forall _ _ _ hp).imp (fun r p => convertRec_same r p), by omega, by omega⟩

/-- C70: in a converted technique, the step of every sequence that is not a loop holds the same
quantity at the same value; its end entries are the limits of the sequence, in order: on the same
quantity, in the same direction, at the same threshold; and its report entries are its record
rules. -/
theorem C70_conditions (seqs : List BSeq) (steps : List MStep) (h : createSteps seqs = .ok steps)
    (i : Nat) (q : BSeq) (hq : seqs[i]? = some q) (hl : q.ctrlType ≠ "Loop") :
    ∃ s, at? steps (stepNo seqs i) = some s ∧ SameControl q s ∧
      List.Forall₂ SameLimit q.lims s.ends ∧ List.Forall₂ SameRecord q.recs s.reports := by
  obtain ⟨s, num, ls, n, h1, h2⟩ := createSteps_created seqs steps h i q hq hl
  obtain ⟨a, b, c, _⟩ := createStep_same num ls n i q s h2
  exact ⟨s, h1, a, b, c⟩

/-- C70: a technique with a limit, record rule or set point that has no Maccor counterpart, or with
more than three limits or record rules in a sequence, is refused. -/
theorem C70_refused (seqs : List BSeq) (i : Nat) (q : BSeq) (hq : seqs[i]? = some q) (hl : q.ctrlType ≠ "Loop")
    (hbad : (∃ l ∈ q.lims, limitSays l = none) ∨ (∃ r ∈ q.recs, recordSays r = none) ∨
      (q.ctrlType ≠ "Rest" ∧ controlQuantity q.ctrlType = none) ∨ 3 < q.lims.length ∨ 3 < q.recs.length) :
    ∃ e, createSteps seqs = .error e := by
  cases h : createSteps seqs with
  | error e => exact ⟨e, rfl⟩
  | ok steps =>
    exfalso
    obtain ⟨s, num, ls, n, h1, h2⟩ := createSteps_created seqs steps h i q hq hl
    obtain ⟨a, b, c, d, e⟩ := createStep_same num ls n i q s h2
    rcases hbad with ⟨l, hm, hn⟩ | ⟨r, hm, hn⟩ | ⟨hr, hn⟩ | hn | hn
    · obtain ⟨k, hk⟩ := List.mem_iff_getElem?.mp hm
      obtain ⟨j, hj⟩ := List.getElem?_eq_some_iff.mp hk
      have := List.Forall₂.get b j (by rw [← b.length_eq]; exact j)
      obtain ⟨c, c', g1, _⟩ := this
      simp only [List.get_eq_getElem, hj] at g1
      rw [hn] at g1; cases g1
    · obtain ⟨k, hk⟩ := List.mem_iff_getElem?.mp hm
      obtain ⟨j, hj⟩ := List.getElem?_eq_some_iff.mp hk
      have := List.Forall₂.get c j (by rw [← c.length_eq]; exact j)
      obtain ⟨c, c', _, g1, _⟩ := this
      simp only [List.get_eq_getElem, hj] at g1
      rw [hn] at g1; cases g1
    · rcases a with ⟨h, _⟩ | ⟨k, _, g, _⟩
      · exact hr h
      · rw [hn] at g; cases g
    · omega
    · omega

/-- current limits written as a magnitude, as the opposite converter does, are refused -/
theorem C70_magnitude (seqs : List BSeq) (i : Nat) (q : BSeq) (hq : seqs[i]? = some q) (hl : q.ctrlType ≠ "Loop")
    (l : BLim) (hm : l ∈ q.lims) (ht : l.type = "|I|") : ∃ e, createSteps seqs = .error e :=
  C70_refused seqs i q hq hl (Or.inl ⟨l, hm, by unfold limitSays; rw [ht]; rfl⟩)

/-! ### examples -/

def discharge : BSeq :=
  { ctrlType := "CC", value := 250, unit := "mA", vs := "<None>", charge := "Discharge",
    lims := [⟨"Ecell", "<", 2700, "mV", "Next sequence", 1⟩, ⟨"Time", ">", 90, "mn", "End", 0⟩],
    recs := [⟨"Time", 30, "s"⟩, ⟨"Ecell", 10, "mV"⟩], repeats := 0, loopTo := 0 }

def pause : BSeq :=
  { ctrlType := "Rest", value := 0, unit := "", vs := "", charge := "Discharge",
    lims := [⟨"Time", ">", 100, "ms", "Next sequence", 2⟩], recs := [], repeats := 0, loopTo := 0 }

def converted : Option (List MStep) := (createSteps [discharge, pause]).toOption

set_option synthInstance.maxSize 1000 in
example : converted.map (fun l => l.map (fun s => (s.stepMode, s.value, s.ends.map endSays))) =
    some [("Current ", some (1 / 4), [some ⟨.voltage, .below, 27 / 10⟩, some ⟨.time, .above, 5400⟩]),
      ("        ", none, [some ⟨.time, .above, 1 / 10⟩]), ("        ", none, [])] := by
  decide +kernel

set_option synthInstance.maxSize 1000 in
example : converted.map (fun l => l.map (fun s => s.reports.map reportSays)) =
    some [[some (.time, 30), some (.voltage, 1 / 100)], [], []] := by
  decide +kernel

end Beep.Props.BtmConditions
