import Verif.Proof.CycleFlat
import Verif.Props.MtbPartition
/-
C23: cycle numbers of a converted protocol agree with the Maccor cycle counter.
-/
namespace Beep.Props.CycleCount
open Beep Beep.MtB Beep.CycleRules Beep.Spec.MtB Beep.Spec.CycleCount Beep.Proof.CycleCount
open Beep.Props.MtbPartition (mapE_forall C24_converted noLimits mk chg)

/-- the columns `Ns` and `Loop` of a file -/
def columns (f : List Record) : List (Int × Int) := f.map (fun r => (r.seq, r.lap))

/-- the cycle numbers the Maccor cycler would have given to the records -/
def maccorCycles (files : List (List Record)) : List (List Int) := files.map (List.map Record.cycle)

theorem convert_parts (cfg : Config) (steps : List Step) (conv : List (Converted × List Seq)) (rules : List Rules)
    (h : convert cfg steps = .ok (conv, rules)) :
    createRules 0 (conv.map Prod.fst) = .ok rules ∧
    ∀ p ∈ conv, numberSteps ((p.1.tech.offset : Int) + 1) 0 p.1.tech.steps = .ok p.1.numbered := by
  unfold convert at h
  simp only [bind, Except.bind] at h
  split at h
  · cases h
  split at h
  · cases h
  split at h
  · cases h
  split at h
  · cases h
  rename_i techs htechs
  split at h
  · cases h
  rename_i conv' hconv
  split at h
  · cases h
  rename_i rules' hr
  cases h
  refine ⟨hr, ?_⟩
  have := mapE_forall _ _ _ hconv
  clear hr htechs hconv
  induction this with
  | nil => intro p hp; cases hp
  | @cons a b as bs hab _ ih =>
    intro p hp
    rcases List.mem_cons.mp hp with rfl | hp
    · split at hab
      · cases hab
      rename_i r hc
      cases hab
      unfold convertSteps at hc
      simp only [bind, Except.bind] at hc
      split at hc
      · cases hc
      rename_i all hall
      split at hc
      · cases hc
      cases hc
      exact hall
    · exact ih p hp

/-- the rules of every technique were made from it -/
theorem createRules_nested (cs : List Converted) (carry : Int) (rules : List Rules) (h : createRules carry cs = .ok rules)
    (hr : ∀ cv ∈ cs, Regular cv.tech) : ∀ cv ∈ cs, Nested cv.tech := by
  induction cs generalizing carry rules with
  | nil => intro cv hc; cases hc
  | cons cv cs ih =>
    rw [createRules] at h
    simp only [bind, Except.bind] at h
    split at h
    · cases h
    rename_i out hout
    split at h
    · cases h
    rename_i rest hrest
    intro cv' hc
    rcases List.mem_cons.mp hc with rfl | hc
    · exact rulesOf_nested carry _ out hout (hr _ (List.mem_cons_self ..))
    · exact ih _ _ hrest (fun c hc => hr c (List.mem_cons_of_mem _ hc)) cv' hc

/-- two procedures that differ only in their end entries -/
def Alike (a b : List Step) : Prop := List.Forall₂ (fun s s' : Step => s'.stepType = s.stepType ∧ s'.limits = s.limits) a b

theorem Alike.get {a b : List Step} (h : Alike a b) {i : Nat} {s : Step} (hs : a[i]? = some s) :
    ∃ s', b[i]? = some s' ∧ s'.stepType = s.stepType ∧ s'.limits = s.limits := by
  induction h generalizing i with
  | nil => simp at hs
  | cons hab _ ih =>
    cases i with
    | zero => cases hs; exact ⟨_, rfl, hab⟩
    | succ i => exact ih hs

theorem Alike.type {a b : List Step} (h : Alike a b) (i : Nat) :
    (b[i]?).map Step.stepType = (a[i]?).map Step.stepType := by
  induction h generalizing i with
  | nil => rfl
  | cons hab _ ih =>
    cases i with
    | zero => simp [hab.1]
    | succ i => exact ih i

theorem Alike.symm {a b : List Step} (h : Alike a b) : Alike b a := by
  induction h with
  | nil => exact .nil
  | cons hab _ ih => exact .cons ⟨hab.1.symm, hab.2.symm⟩ ih

theorem performs_alike {a b : List Step} (hab : Alike a b) {pc : Nat} {c c' : Int} {evs : List Event}
    (h : Performs a pc c evs c') : Performs b pc c evs c' := by
  induction h with
  | done c => rw [hab.length_eq]; exact .done c
  | adv pc s c evs c' hs hk h ih =>
    obtain ⟨s', g1, g2, g3⟩ := hab.get hs
    exact .adv _ s' _ _ _ g1 (g2.trans hk) ih
  | enter pc s c evs c' hs hk h ih =>
    obtain ⟨s', g1, g2, g3⟩ := hab.get hs
    exact .enter _ s' _ _ _ g1 (by unfold IsDo; rw [g2]; exact hk) ih
  | again pc s o c evs c' hs hk ho h ih =>
    obtain ⟨s', g1, g2, g3⟩ := hab.get hs
    obtain ⟨h1, d, l, hm, e1, e2, e3⟩ := ho
    exact .again _ s' o _ _ _ g1 (by unfold IsLoop; rw [g2]; exact hk)
      ⟨h1, d, l, hm, by rw [hab.type]; exact e1, by rw [hab.type]; exact e2, fun j a b => by rw [hab.type]; exact e3 j a b⟩ ih
  | leave pc s c evs c' hs hk h ih =>
    obtain ⟨s', g1, g2, g3⟩ := hab.get hs
    exact .leave _ s' _ _ _ g1 (by unfold IsLoop; rw [g2]; exact hk) ih
  | measure pc s c now evs c' hs hk he h ih =>
    obtain ⟨s', g1, g2, g3⟩ := hab.get hs
    exact .measure _ s' _ _ _ _ g1 (by unfold IsMeasure; rw [g2]; exact hk) (by unfold Records; rw [g3]; exact he) ih

/-- the techniques of the converted protocol tile a procedure that is like the given one -/
theorem convert_tiling (cfg : Config) (steps : List Step) (conv : List (Converted × List Seq)) (rules : List Rules)
    (h : convert cfg steps = .ok (conv, rules)) :
    ∃ body, Alike steps.dropLast body ∧ Tiling 0 1 body (conv.map (fun p => p.1.tech)) := by
  obtain ⟨body, last, h1, h2, h3⟩ := C24_converted cfg steps _ h
  refine ⟨body, ?_, h3⟩
  obtain ⟨l, rfl⟩ : ∃ l, last = [l] := by
    cases last with
    | nil => simp at h2
    | cons l ls => cases ls with
      | nil => exact ⟨l, rfl⟩
      | cons _ _ => simp at h2
  have : ∀ (a b : List Step), List.Forall₂ (fun s s' : Step => { s' with ends := s.ends } = s) a (b ++ [l]) →
      Alike a.dropLast b := by
    intro a b hab
    induction b generalizing a with
    | nil =>
      cases hab with
      | cons _ hnil => cases hnil; exact .nil
    | cons x xs ih =>
      cases hab with
      | @cons y _ ys _ hxy hrest =>
        have hne : ys ≠ [] := by
          rintro rfl
          have := hrest.length_eq
          simp at this
        obtain ⟨z, zs, rfl⟩ := List.exists_cons_of_ne_nil hne
        have := ih _ hrest
        exact .cons ⟨by rw [← hxy], by rw [← hxy]⟩ this
  exact this steps body h1

/-- C23, from the procedure to the files.  Whatever the Maccor cycler records while it performs
the procedure (all loops repeated any number of times), the techniques of the converted protocol
can record the same into one file each, and numbering those files with the generated rules gives
every record the Maccor cycle counter.
Missing: procedures with a technique that is not `Regular`; for those the numbers can be wrong,
see `C23_first_adv_violated`, `C23_single_violated` and `C23_lead_violated`. -/
theorem C23_numbers_partial (cfg : Config) (steps : List Step) (conv : List (Converted × List Seq)) (rules : List Rules)
    (h : convert cfg steps = .ok (conv, rules)) (hreg : ∀ p ∈ conv, Regular p.1.tech) (evs : List Event) (c' : Int)
    (hp : Performs steps.dropLast 0 1 evs c') :
    ∃ files, Matches (conv.map (fun p => p.1.tech)) evs files ∧ Runs (conv.map (fun p => p.1.tech)) 1 files ∧
      addCycleNums 1 (rules.zip (files.map columns)) = .ok (maccorCycles files) := by
  obtain ⟨hr, hn⟩ := convert_parts cfg steps conv rules h
  obtain ⟨body, hb, ht⟩ := convert_tiling cfg steps conv rules h
  have hnest : ∀ t ∈ conv.map (fun p => p.1.tech), Nested t := by
    intro t htm
    obtain ⟨p, hp, rfl⟩ := List.mem_map.mp htm
    exact createRules_nested _ _ _ hr (by
      intro cv hcv
      obtain ⟨q, hq, rfl⟩ := List.mem_map.mp hcv
      exact hreg q hq) _ (List.mem_map_of_mem hp)
  obtain ⟨files, f1, f2⟩ := runs_of_performs ht [] rfl hnest (by
    rw [List.nil_append]; exact performs_alike hb hp)
  refine ⟨files, f2, f1, ?_⟩
  refine runs_numbered (conv.map Prod.fst) 0 1 rules hr ?_ files ?_
  · intro cv hcv
    obtain ⟨p, hp, rfl⟩ := List.mem_map.mp hcv
    exact ⟨hreg p hp, hn p hp⟩
  · rw [List.map_map]
    exact f1

/-- C23, from the files to the procedure.  Whatever the techniques of the converted protocol
record, it is what the Maccor cycler would record on some performance of the procedure, and the
generated rules give every record the Maccor cycle counter. -/
theorem C23_files_partial (cfg : Config) (steps : List Step) (conv : List (Converted × List Seq)) (rules : List Rules)
    (h : convert cfg steps = .ok (conv, rules)) (hreg : ∀ p ∈ conv, Regular p.1.tech) (files : List (List Record))
    (hrun : Runs (conv.map (fun p => p.1.tech)) 1 files) :
    (∃ evs c', Performs steps.dropLast 0 1 evs c' ∧ Matches (conv.map (fun p => p.1.tech)) evs files) ∧
      addCycleNums 1 (rules.zip (files.map columns)) = .ok (maccorCycles files) := by
  obtain ⟨hr, hn⟩ := convert_parts cfg steps conv rules h
  obtain ⟨body, hb, ht⟩ := convert_tiling cfg steps conv rules h
  have hnest : ∀ t ∈ conv.map (fun p => p.1.tech), Nested t := by
    intro t htm
    obtain ⟨p, hp, rfl⟩ := List.mem_map.mp htm
    exact createRules_nested _ _ _ hr (by
      intro cv hcv
      obtain ⟨q, hq, rfl⟩ := List.mem_map.mp hcv
      exact hreg q hq) _ (List.mem_map_of_mem hp)
  constructor
  · obtain ⟨evs, c', g1, g2⟩ := performs_of_runs ht [] rfl hnest hrun
    exact ⟨evs, c', performs_alike hb.symm g2, g1⟩
  · refine runs_numbered (conv.map Prod.fst) 0 1 rules hr ?_ files ?_
    · intro cv hcv
      obtain ⟨p, hp, rfl⟩ := List.mem_map.mp hcv
      exact ⟨hreg p hp, hn p hp⟩
    · rw [List.map_map]
      exact hrun

theorem pairRows_columns (f : List Record) :
    pairRows (f.map Record.seq) (f.map Record.lap) = .ok (columns f) := by
  induction f with
  | nil => rfl
  | cons r f ih =>
    simp only [List.map_cons, pairRows, ih]
    rfl

/-- C23 for the numbering done while a data file is read: for a protocol of one technique the
cycle index computed from the columns of its file is the Maccor cycle counter. -/
theorem C23_index_partial (cfg : Config) (steps : List Step) (p : Converted × List Seq) (r : Rules)
    (h : convert cfg steps = .ok ([p], [r])) (hreg : Regular p.1.tech) (f : List Record)
    (hrun : Runs [p.1.tech] 1 [f]) :
    getCycleIndex r (f.map Record.seq) (some (f.map Record.lap)) = .ok (f.map Record.cycle) := by
  have := (C23_files_partial cfg steps _ _ h (by simpa using hreg) [f] hrun).2
  simp only [maccorCycles, List.map_cons, List.map_nil, List.zip_cons_cons, List.zip_nil_right] at this
  cases f with
  | nil => simp [columns, addCycleNums] at this
  | cons x xs =>
    have hpr := pairRows_columns (x :: xs)
    simp only [List.map_cons] at hpr
    simp only [columns, List.map_cons, addCycleNums, bind, Except.bind, pure, Except.pure, Except.ok.injEq,
      List.cons.injEq, and_true] at this
    simp only [getCycleIndex, List.map_cons, hpr, bind, Except.bind, pure, Except.pure]
    exact congrArg Except.ok this

/-! ### the theorems are not vacuous -/

def rst : Step := { mk "Rest" with stepValue := none, stepMode := "", ends := .absent }

def proc : List Step := [chg, mk "AdvCycle", mk "Do 1", chg, rst, mk "AdvCycle", mk "Loop 1", mk "End"]
def procTech : Technique := { num := 1, steps := proc.dropLast, offset := 0, loops := false, numLoops := 0 }

theorem proc_converts : ∃ p r, convert noLimits proc = .ok ([p], [r]) ∧ p.1.tech = procTech ∧
    r.seqTransitions = [((0, 1), 1), ((2, 1), 1)] := by
  have key : (match convert noLimits proc with
    | .ok ([p], [r]) => decide (p.1.tech = procTech ∧ r.seqTransitions = [((0, 1), 1), ((2, 1), 1)])
    | _ => false) = true := by decide +kernel
  split at key
  · rename_i p r heq
    exact ⟨p, r, heq, (of_decide_eq_true key).1, (of_decide_eq_true key).2⟩
  · cases key

theorem proc_regular : Regular procTech := by
  have hlen : procTech.steps.length = 7 := rfl
  have small : ∀ (k : Nat) s, procTech.steps[k]? = some s → k < 7 := fun k s h =>
    hlen ▸ (List.getElem?_eq_some_iff.mp h).1
  refine ⟨?_, ⟨chg, by decide +kernel, Or.inr (Or.inl rfl)⟩, ?_, ?_, ?_⟩
  · intro s hs
    simp only [procTech, proc, List.dropLast, List.mem_cons, List.not_mem_nil, or_false] at hs
    rcases hs with rfl | rfl | rfl | rfl | rfl | rfl | rfl <;> simp [IsMeasure, IsAdv, IsDo, IsLoop, mk, chg, rst]
  · intro o d hd hk
    have := small o d hd
    have : o = 0 ∨ o = 1 ∨ o = 2 ∨ o = 3 ∨ o = 4 ∨ o = 5 ∨ o = 6 := by omega
    rcases this with rfl | rfl | rfl | rfl | rfl | rfl | rfl
    all_goals (simp only [procTech, proc, List.dropLast] at hd; cases hd)
    · simp [IsDo, chg, rst, mk] at hk
    · simp [IsDo, mk] at hk
    · exact ⟨chg, rfl, Or.inr (Or.inl rfl)⟩
    · simp [IsDo, chg, mk] at hk
    · simp [IsDo, rst, mk] at hk
    · simp [IsDo, mk] at hk
    · simp [IsDo, mk] at hk
  · intro o k s l ho hs hk hl hlk
    have := small (k + 1) l hl
    have hk5 : k = 5 := by
      have : k = 0 ∨ k = 1 ∨ k = 2 ∨ k = 3 ∨ k = 4 ∨ k = 5 := by omega
      rcases this with rfl | rfl | rfl | rfl | rfl | rfl
      all_goals (simp only [procTech, proc, List.dropLast] at hs hl; cases hs; cases hl)
      all_goals first | rfl | simp [IsAdv, IsLoop, chg, rst, mk] at hk hlk
    subst hk5
    have ho2 : o = 2 := by
      obtain ⟨h1, ⟨d, hd, hdd⟩, h3⟩ := (openAt_iff _ _ _).mp ho
      have : o = 0 ∨ o = 1 ∨ o = 2 ∨ o = 3 ∨ o = 4 ∨ o = 5 := by omega
      rcases this with rfl | rfl | rfl | rfl | rfl | rfl
      all_goals (simp only [procTech, proc, List.dropLast] at hd; cases hd)
      all_goals first | rfl | simp [IsDo, chg, rst, mk] at hdd
    subst ho2
    decide +kernel
  · intro h; cases h

/-- the loop is run twice: the counter goes from 1 over 2 to 3 -/
def procEvents : List Event := [⟨0, 0, 1⟩, ⟨3, 0, 2⟩, ⟨3, 0, 2⟩, ⟨4, 0, 2⟩, ⟨3, 0, 3⟩, ⟨4, 0, 3⟩]

theorem one (pos : Nat) (s : Step) (c : Int) (h : s.limits = none) : Records pos s c [⟨pos, 0, c⟩] :=
  Or.inl ⟨h, 0, rfl⟩

example : Performs proc.dropLast 0 1 procEvents 4 := by
  refine .measure 0 chg 1 [⟨0, 0, 1⟩] _ _ rfl (Or.inr (Or.inl rfl)) (one _ _ _ rfl) ?_
  refine .adv 1 (mk "AdvCycle") _ _ _ rfl rfl (.enter 2 (mk "Do 1") _ _ _ rfl (Or.inl rfl) ?_)
  refine .measure 3 chg 2 [⟨3, 0, 2⟩, ⟨3, 0, 2⟩] _ _ rfl (Or.inr (Or.inl rfl)) (Or.inl ⟨rfl, 1, rfl⟩) ?_
  refine .measure 4 rst 2 [⟨4, 0, 2⟩] _ _ rfl (Or.inl rfl) (one _ _ _ rfl) ?_
  refine .adv 5 (mk "AdvCycle") _ _ _ rfl rfl ?_
  refine .again 6 (mk "Loop 1") 2 _ _ _ rfl (Or.inl rfl) ?_ (.enter 2 (mk "Do 1") _ _ _ rfl (Or.inl rfl) ?_)
  · refine ⟨by decide, "Do 1", "Loop 1", by simp, rfl, rfl, ?_⟩
    intro j h1 h2
    have : j = 3 ∨ j = 4 ∨ j = 5 := by omega
    rcases this with rfl | rfl | rfl <;> decide +kernel
  refine .measure 3 chg 3 [⟨3, 0, 3⟩] _ _ rfl (Or.inr (Or.inl rfl)) (one _ _ _ rfl) ?_
  refine .measure 4 rst 3 [⟨4, 0, 3⟩] _ _ rfl (Or.inl rfl) (one _ _ _ rfl) ?_
  refine .adv 5 (mk "AdvCycle") _ _ _ rfl rfl (.leave 6 (mk "Loop 1") _ _ _ rfl (Or.inl rfl) ?_)
  exact .done 4

/-- all hypotheses of `C23_files_partial` and `C23_index_partial` are met by `proc` -/
example : ∃ p r, convert noLimits proc = .ok ([p], [r]) ∧ Regular p.1.tech := by
  obtain ⟨p, r, h1, h2, _⟩ := proc_converts
  exact ⟨p, r, h1, h2 ▸ proc_regular⟩

/-! ### irregular techniques -/

/-- the numbering fails for a performance of a procedure -/
def Misnumbered (steps : List Step) : Prop :=
  ∃ conv rules evs c' files, convert noLimits steps = .ok (conv, rules) ∧ Performs steps.dropLast 0 1 evs c' ∧
    Matches (conv.map (fun p => p.1.tech)) evs files ∧ Runs (conv.map (fun p => p.1.tech)) 1 files ∧
    addCycleNums 1 (rules.zip (files.map columns)) ≠ .ok (maccorCycles files)

theorem misnumbered_of (steps : List Step) (techs : List Technique) (evs : List Event) (c' : Int) (files : List (List Record))
    (nums : List (List Int))
    (key : (match convert noLimits steps with
      | .ok (conv, rules) => decide (conv.map (fun p => p.1.tech) = techs ∧
          addCycleNums 1 (rules.zip (files.map columns)) = .ok nums)
      | _ => false) = true)
    (hn : nums ≠ maccorCycles files) (h1 : Performs steps.dropLast 0 1 evs c') (h2 : Matches techs evs files)
    (h3 : Runs techs 1 files) : Misnumbered steps := by
  split at key
  · rename_i conv rules heq
    obtain ⟨e1, e2⟩ := of_decide_eq_true key
    refine ⟨conv, rules, evs, c', files, heq, h1, by rw [e1]; exact h2, by rw [e1]; exact h3, ?_⟩
    rw [e2]
    intro hc
    cases hc
    exact hn rfl
  · cases key

theorem emit1 (steps : List Step) (pc : Nat) (s : Step) (c : Int) (n : Int) (h : s.limits = none)
    (hn : (firstSeq steps pc : Int) = n) : Emits steps pc s c [(n, c)] := Or.inl ⟨h, 0, by rw [hn]; rfl⟩

def procA : List Step := [mk "Do 1", mk "AdvCycle", chg, rst, mk "Loop 1", mk "End"]
def techA : Technique := { num := 1, steps := procA.dropLast, offset := 0, loops := false, numLoops := 0 }

/-- C23 fails: when a loop body begins with `AdvCycle`, repeating the loop does not advance the
cycle number. -/
theorem C23_first_adv_violated : Misnumbered procA := by
  refine misnumbered_of procA [techA] [⟨2, 0, 2⟩, ⟨3, 0, 2⟩, ⟨2, 0, 3⟩, ⟨3, 0, 3⟩] 3
    [[⟨0, 0, 2⟩, ⟨1, 0, 2⟩, ⟨0, 0, 3⟩, ⟨1, 0, 3⟩]] [[2, 2, 2, 2]] (by decide +kernel) (by decide +kernel) ?_ ?_ ?_
  · refine .enter 0 (mk "Do 1") _ _ _ rfl (Or.inl rfl) (.adv 1 (mk "AdvCycle") _ _ _ rfl rfl ?_)
    refine .measure 2 chg 2 [⟨2, 0, 2⟩] _ _ rfl (Or.inr (Or.inl rfl)) (one _ _ _ rfl) ?_
    refine .measure 3 rst 2 [⟨3, 0, 2⟩] _ _ rfl (Or.inl rfl) (one _ _ _ rfl) ?_
    refine .again 4 (mk "Loop 1") 0 _ _ _ rfl (Or.inl rfl) ?_ (.enter 0 (mk "Do 1") _ _ _ rfl (Or.inl rfl) ?_)
    · refine ⟨by decide, "Do 1", "Loop 1", by simp, rfl, rfl, ?_⟩
      intro j h1 h2
      have : j = 1 ∨ j = 2 ∨ j = 3 := by omega
      rcases this with rfl | rfl | rfl <;> decide +kernel
    refine .adv 1 (mk "AdvCycle") _ _ _ rfl rfl ?_
    refine .measure 2 chg 3 [⟨2, 0, 3⟩] _ _ rfl (Or.inr (Or.inl rfl)) (one _ _ _ rfl) ?_
    refine .measure 3 rst 3 [⟨3, 0, 3⟩] _ _ rfl (Or.inl rfl) (one _ _ _ rfl) ?_
    exact .leave 4 (mk "Loop 1") _ _ _ rfl (Or.inl rfl) (.done 3)
  · refine .file techA [] [⟨2, 0, 2⟩, ⟨3, 0, 2⟩, ⟨2, 0, 3⟩, ⟨3, 0, 3⟩] [] _ [] ?_ .done
    refine .cons ⟨rfl, 2, rfl, by decide +kernel⟩ (.cons ⟨rfl, 3, rfl, by decide +kernel⟩
      (.cons ⟨rfl, 2, rfl, by decide +kernel⟩ (.cons ⟨rfl, 3, rfl, by decide +kernel⟩ .nil)))
  · refine .plain techA [] 1 [(0, 2), (1, 2), (0, 3), (1, 3)] 3 [] rfl ?_ (.done _)
    refine .enter 0 (mk "Do 1") _ _ _ rfl (Or.inl rfl) (.adv 1 (mk "AdvCycle") _ _ _ rfl rfl ?_)
    refine .measure 2 chg 2 [(0, 2)] _ _ rfl (Or.inr (Or.inl rfl)) (emit1 _ _ _ _ _ rfl (by decide +kernel)) ?_
    refine .measure 3 rst 2 [(1, 2)] _ _ rfl (Or.inl rfl) (emit1 _ _ _ _ _ rfl (by decide +kernel)) ?_
    refine .again 4 (mk "Loop 1") 0 _ _ _ rfl (Or.inl rfl) ?_ (.enter 0 (mk "Do 1") _ _ _ rfl (Or.inl rfl) ?_)
    · refine (openAt_iff _ _ _).mpr ⟨by decide, ⟨mk "Do 1", rfl, Or.inl rfl⟩, ?_⟩
      intro j s h1 h2 hs
      have : j = 1 ∨ j = 2 ∨ j = 3 := by omega
      rcases this with rfl | rfl | rfl <;> cases hs <;> simp [IsDo, IsLoop, mk, chg, rst]
    refine .adv 1 (mk "AdvCycle") _ _ _ rfl rfl ?_
    refine .measure 2 chg 3 [(0, 3)] _ _ rfl (Or.inr (Or.inl rfl)) (emit1 _ _ _ _ _ rfl (by decide +kernel)) ?_
    refine .measure 3 rst 3 [(1, 3)] _ _ rfl (Or.inl rfl) (emit1 _ _ _ _ _ rfl (by decide +kernel)) ?_
    exact .leave 4 (mk "Loop 1") _ _ _ rfl (Or.inl rfl) (.done 3)

def procB : List Step := [mk "Do 1", chg, mk "AdvCycle", mk "Loop 1", mk "End"]
def techB : Technique := { num := 1, steps := procB.dropLast, offset := 0, loops := false, numLoops := 0 }

/-- C23 fails: a loop over a single step with `AdvCycle` never advances the cycle number. -/
theorem C23_single_violated : Misnumbered procB := by
  refine misnumbered_of procB [techB] [⟨1, 0, 1⟩, ⟨1, 0, 2⟩] 3
    [[⟨0, 0, 1⟩, ⟨0, 0, 2⟩]] [[1, 1]] (by decide +kernel) (by decide +kernel) ?_ ?_ ?_
  · refine .enter 0 (mk "Do 1") _ _ _ rfl (Or.inl rfl) ?_
    refine .measure 1 chg 1 [⟨1, 0, 1⟩] _ _ rfl (Or.inr (Or.inl rfl)) (one _ _ _ rfl) (.adv 2 (mk "AdvCycle") _ _ _ rfl rfl ?_)
    refine .again 3 (mk "Loop 1") 0 _ _ _ rfl (Or.inl rfl) ?_ (.enter 0 (mk "Do 1") _ _ _ rfl (Or.inl rfl) ?_)
    · refine ⟨by decide, "Do 1", "Loop 1", by simp, rfl, rfl, ?_⟩
      intro j h1 h2
      have : j = 1 ∨ j = 2 := by omega
      rcases this with rfl | rfl <;> decide +kernel
    refine .measure 1 chg 2 [⟨1, 0, 2⟩] _ _ rfl (Or.inr (Or.inl rfl)) (one _ _ _ rfl) (.adv 2 (mk "AdvCycle") _ _ _ rfl rfl ?_)
    exact .leave 3 (mk "Loop 1") _ _ _ rfl (Or.inl rfl) (.done 3)
  · refine .file techB [] [⟨1, 0, 1⟩, ⟨1, 0, 2⟩] [] _ [] ?_ .done
    exact .cons ⟨rfl, 1, rfl, by decide +kernel⟩ (.cons ⟨rfl, 1, rfl, by decide +kernel⟩ .nil)
  · refine .plain techB [] 1 [(0, 1), (0, 2)] 3 [] rfl ?_ (.done _)
    refine .enter 0 (mk "Do 1") _ _ _ rfl (Or.inl rfl) ?_
    refine .measure 1 chg 1 [(0, 1)] _ _ rfl (Or.inr (Or.inl rfl)) (emit1 _ _ _ _ _ rfl (by decide +kernel))
      (.adv 2 (mk "AdvCycle") _ _ _ rfl rfl ?_)
    refine .again 3 (mk "Loop 1") 0 _ _ _ rfl (Or.inl rfl) ?_ (.enter 0 (mk "Do 1") _ _ _ rfl (Or.inl rfl) ?_)
    · refine (openAt_iff _ _ _).mpr ⟨by decide, ⟨mk "Do 1", rfl, Or.inl rfl⟩, ?_⟩
      intro j s h1 h2 hs
      have : j = 1 ∨ j = 2 := by omega
      rcases this with rfl | rfl <;> cases hs <;> simp [IsDo, IsLoop, mk, chg]
    refine .measure 1 chg 2 [(0, 2)] _ _ rfl (Or.inr (Or.inl rfl)) (emit1 _ _ _ _ _ rfl (by decide +kernel))
      (.adv 2 (mk "AdvCycle") _ _ _ rfl rfl ?_)
    exact .leave 3 (mk "Loop 1") _ _ _ rfl (Or.inl rfl) (.done 3)

def procC : List Step :=
  [mk "Do 1", mk "AdvCycle", mk "Do 2", chg, mk "Loop 2", mk "Loop 1", mk "End"]
def techC : Technique :=
  { num := 1, steps := [mk "AdvCycle", mk "Do 2", chg, mk "Loop 2"], offset := 1, loops := true, numLoops := 3 }

/-- C23 fails: when a technique that is itself repeated begins with `AdvCycle`, only the first
repetition advances the cycle number. -/
theorem C23_lead_violated : Misnumbered procC := by
  refine misnumbered_of procC [techC] [⟨3, 0, 2⟩, ⟨3, 0, 3⟩] 3
    [[⟨0, 0, 2⟩, ⟨0, 1, 3⟩]] [[2, 2]] (by decide +kernel) (by decide +kernel) ?_ ?_ ?_
  · refine .enter 0 (mk "Do 1") _ _ _ rfl (Or.inl rfl) (.adv 1 (mk "AdvCycle") _ _ _ rfl rfl
      (.enter 2 (mk "Do 2") _ _ _ rfl (Or.inr rfl) ?_))
    refine .measure 3 chg 2 [⟨3, 0, 2⟩] _ _ rfl (Or.inr (Or.inl rfl)) (one _ _ _ rfl)
      (.leave 4 (mk "Loop 2") _ _ _ rfl (Or.inr rfl) ?_)
    refine .again 5 (mk "Loop 1") 0 _ _ _ rfl (Or.inl rfl) ?_ (.enter 0 (mk "Do 1") _ _ _ rfl (Or.inl rfl) ?_)
    · refine ⟨by decide, "Do 1", "Loop 1", by simp, rfl, rfl, ?_⟩
      intro j h1 h2
      have : j = 1 ∨ j = 2 ∨ j = 3 ∨ j = 4 := by omega
      rcases this with rfl | rfl | rfl | rfl <;> decide +kernel
    refine .adv 1 (mk "AdvCycle") _ _ _ rfl rfl (.enter 2 (mk "Do 2") _ _ _ rfl (Or.inr rfl) ?_)
    refine .measure 3 chg 3 [⟨3, 0, 3⟩] _ _ rfl (Or.inr (Or.inl rfl)) (one _ _ _ rfl)
      (.leave 4 (mk "Loop 2") _ _ _ rfl (Or.inr rfl) ?_)
    exact .leave 5 (mk "Loop 1") _ _ _ rfl (Or.inl rfl) (.done 3)
  · refine .file techC [] [⟨3, 0, 2⟩, ⟨3, 0, 3⟩] [] _ [] ?_ .done
    exact .cons ⟨rfl, 2, rfl, by decide +kernel⟩ (.cons ⟨rfl, 2, rfl, by decide +kernel⟩ .nil)
  · refine .loops techC [] 1 _ 3 [] rfl (.more 0 1 [(0, 2)] 2 [⟨0, 1, 3⟩] 3 ?_ (.last 1 2 [(0, 3)] 3 ?_)) (.done _)
    · refine .adv 0 (mk "AdvCycle") _ _ _ rfl rfl (.enter 1 (mk "Do 2") _ _ _ rfl (Or.inr rfl) ?_)
      refine .measure 2 chg 2 [(0, 2)] _ _ rfl (Or.inr (Or.inl rfl)) (emit1 _ _ _ _ _ rfl (by decide +kernel)) ?_
      exact .leave 3 (mk "Loop 2") _ _ _ rfl (Or.inr rfl) (.done 2)
    · refine .adv 0 (mk "AdvCycle") _ _ _ rfl rfl (.enter 1 (mk "Do 2") _ _ _ rfl (Or.inr rfl) ?_)
      refine .measure 2 chg 3 [(0, 3)] _ _ rfl (Or.inr (Or.inl rfl)) (emit1 _ _ _ _ _ rfl (by decide +kernel)) ?_
      exact .leave 3 (mk "Loop 2") _ _ _ rfl (Or.inr rfl) (.done 3)

end Beep.Props.CycleCount
