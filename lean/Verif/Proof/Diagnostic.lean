import Verif.Proof.Base
import Verif.Proof.Py
import Verif.Model.Diagnostic
import Verif.Spec.Diagnostic
/-
Helper lemmas for Props/Diagnostic.
-/
namespace Beep.Diagnostic
open Beep.Spec.Diagnostic

theorem length_flatten_map_unique (d : List (List Int)) :
    (d.map List.length).sum = d.flatten.length := by
  simp [List.length_flatten]

/-- the flattened list of all index sets -/
def allIxList (c : Dict String (List Int)) : List Int := (c.map Prod.snd).flatten

theorem mem_allIxList {c : Dict String (List Int)} {i : Int} :
    i ∈ allIxList c ↔ ∃ t ix, (t, ix) ∈ c ∧ i ∈ ix := by
  unfold allIxList
  simp only [List.mem_flatten, List.mem_map, Prod.exists]
  constructor
  · rintro ⟨l, ⟨t, ix, h, rfl⟩, hi⟩; exact ⟨t, ix, h, hi⟩
  · rintro ⟨t, ix, h, hi⟩; exact ⟨ix, ⟨t, ix, h, rfl⟩, hi⟩

/-- counting = disjointness -/
theorem overlap_iff (c : Dict String (List Int)) (wf : c.WF) (hn : ∀ p ∈ c, p.2.Nodup) :
    (c.map Prod.snd).flatten.Nodup ↔
      (∀ i t t' ix ix', (t, ix) ∈ c → i ∈ ix → (t', ix') ∈ c → i ∈ ix' → t = t') := by
  induction c with
  | nil => simp
  | cons p c ih =>
    obtain ⟨t₀, ix₀⟩ := p
    have wf' : Dict.WF c := by
      unfold Dict.WF Dict.keys at *; simp only [List.map_cons, List.nodup_cons] at wf; exact wf.2
    have hk : t₀ ∉ c.map Prod.fst := by
      unfold Dict.WF Dict.keys at wf; simp only [List.map_cons, List.nodup_cons] at wf; exact wf.1
    have hn' : ∀ p ∈ c, p.2.Nodup := fun p hp => hn p (List.mem_cons_of_mem _ hp)
    have hn0 : ix₀.Nodup := hn (t₀, ix₀) (List.mem_cons_self ..)
    simp only [List.map_cons, List.flatten_cons, List.nodup_append]
    rw [ih wf' hn']
    constructor
    · rintro ⟨_, hc, hd⟩ i t t' ix ix' h1 hi h2 hi'
      have key : ∀ (t ix) , (t, ix) ∈ c → i ∈ ix → i ∈ ix₀ → False := by
        intro t ix h hi hi0
        exact hd i hi0 i (mem_allIxList.mpr ⟨t, ix, h, hi⟩) rfl
      rcases List.mem_cons.mp h1 with h1 | h1 <;> rcases List.mem_cons.mp h2 with h2 | h2
      · cases h1; cases h2; rfl
      · cases h1; exact (key _ _ h2 hi' hi).elim
      · cases h2; exact (key _ _ h1 hi hi').elim
      · exact hc i t t' ix ix' h1 hi h2 hi'
    · intro h
      refine ⟨hn0, ?_, ?_⟩
      · intro i t t' ix ix' h1 hi h2 hi'
        exact h i t t' ix ix' (List.mem_cons_of_mem _ h1) hi (List.mem_cons_of_mem _ h2) hi'
      · intro a ha b hb e
        subst e
        obtain ⟨t, ix, h1, h2⟩ := mem_allIxList.mp hb
        have := h a t₀ t ix₀ ix (List.mem_cons_self ..) ha (List.mem_cons_of_mem _ h1) h2
        subst this
        exact hk (List.mem_map_of_mem (f := Prod.fst) h1)

/-- the inner loop -/
theorem get?_foldl_record (t : String) (ix : List Int) (m : Dict Int String) (i : Int) :
    (ix.foldl (recordType t) m).get? i = if i ∈ ix then some t else m.get? i := by
  induction ix generalizing m with
  | nil => simp
  | cons a ix ih =>
    simp only [List.foldl_cons, ih, recordType, Dict.get?_set, List.mem_cons]
    by_cases h1 : i ∈ ix <;> by_cases h2 : i = a <;> simp [h1, h2]

theorem WF_foldl_record (t : String) (ix : List Int) (m : Dict Int String) (h : m.WF) :
    Dict.WF (ix.foldl (recordType t) m) := by
  induction ix generalizing m with
  | nil => exact h
  | cons a ix ih => exact ih _ (Dict.WF_set h _ _)

theorem get?_build_aux (c : Dict String (List Int)) (m : Dict Int String) (i : Int) (t : String) :
    (c.foldl (fun m p => p.2.foldl (recordType p.1) m) m).get? i = some t →
      (∃ ix, (t, ix) ∈ c ∧ i ∈ ix) ∨ m.get? i = some t := by
  induction c generalizing m with
  | nil => intro h; exact Or.inr h
  | cons p c ih =>
    intro h
    rcases ih _ h with ⟨ix, h1, h2⟩ | h
    · exact Or.inl ⟨ix, List.mem_cons_of_mem _ h1, h2⟩
    · rw [get?_foldl_record] at h
      split at h
      · rename_i hi
        cases h
        exact Or.inl ⟨p.2, List.mem_cons_self .., hi⟩
      · exact Or.inr h

theorem isSome_build_aux (c : Dict String (List Int)) (m : Dict Int String) (i : Int)
    (h : (∃ t ix, (t, ix) ∈ c ∧ i ∈ ix) ∨ (m.get? i).isSome) :
    ((c.foldl (fun m p => p.2.foldl (recordType p.1) m) m).get? i).isSome := by
  induction c generalizing m with
  | nil => rcases h with ⟨t, ix, h, _⟩ | h
           · cases h
           · exact h
  | cons p c ih =>
    refine ih _ ?_
    rw [get?_foldl_record]
    rcases h with ⟨t, ix, h1, h2⟩ | h
    · rcases List.mem_cons.mp h1 with h1 | h1
      · right; rw [← h1]; simp [h2]
      · left; exact ⟨t, ix, h1, h2⟩
    · right; split
      · rfl
      · exact h

theorem get?_build (c : Dict String (List Int))
    (hu : ∀ i t t' ix ix', (t, ix) ∈ c → i ∈ ix → (t', ix') ∈ c → i ∈ ix' → t = t')
    (i : Int) (t : String) :
    (buildTypeByIx c).get? i = some t ↔ ∃ ix, (t, ix) ∈ c ∧ i ∈ ix := by
  constructor
  · intro h
    rcases get?_build_aux c [] i t h with h | h
    · exact h
    · simp [Dict.get?] at h
  · rintro ⟨ix, h1, h2⟩
    have := isSome_build_aux c [] i (Or.inl ⟨t, ix, h1, h2⟩)
    obtain ⟨t', ht'⟩ := Option.isSome_iff_exists.mp this
    rcases get?_build_aux c [] i t' ht' with ⟨ix', h3, h4⟩ | h
    · have := hu i t t' ix ix' h1 h2 h3 h4
      subst this; exact ht'
    · simp [Dict.get?] at h

theorem mem_ixFor (attr : String) (c : Dict String (List Int)) (i : Int) :
    i ∈ ixFor attr c ↔ ∃ t ix, (t, ix) ∈ c ∧ i ∈ ix ∧ NameContains attr t := by
  unfold ixFor
  simp only [mem_unique, List.mem_flatten, List.mem_map, List.mem_filter, containsSub_iff,
    Prod.exists, NameContains, lower]
  constructor
  · rintro ⟨l, ⟨t, ix, ⟨h1, h2⟩, rfl⟩, h3⟩; exact ⟨t, ix, h1, h3, h2⟩
  · rintro ⟨t, ix, h1, h2, h3⟩; exact ⟨ix, ⟨t, ix, ⟨h1, h3⟩, rfl⟩, h2⟩

/-- the deduplicated mapping lists the same indices -/
theorem listed_map_unique {d : Dict String (List Int)} {i : Int} {t : String} :
    (∃ ix, (t, ix) ∈ d.map (fun p => (p.1, unique p.2)) ∧ i ∈ ix) ↔ Listed d i t := by
  simp only [List.mem_map, Prod.exists, Prod.mk.injEq, Listed]
  constructor
  · rintro ⟨_, ⟨a, b, h, rfl, rfl⟩, hi⟩; exact ⟨b, h, mem_unique.mp hi⟩
  · rintro ⟨ix, h, hi⟩; exact ⟨_, ⟨t, ix, h, rfl, rfl⟩, mem_unique.mpr hi⟩

theorem WF_map_unique {d : Dict String (List Int)} (wf : d.WF) :
    Dict.WF (d.map (fun p => (p.1, unique p.2))) := by
  unfold Dict.WF Dict.keys at *
  simpa [List.map_map, Function.comp_def] using wf

theorem unamb_map_unique {d : Dict String (List Int)} :
    (∀ i t t' ix ix', (t, ix) ∈ d.map (fun p => (p.1, unique p.2)) → i ∈ ix →
        (t', ix') ∈ d.map (fun p => (p.1, unique p.2)) → i ∈ ix' → t = t') ↔ Unambiguous d := by
  constructor
  · intro h i t t' h1 h2
    obtain ⟨ix, h1, h1'⟩ := listed_map_unique.mpr h1
    obtain ⟨ix', h2, h2'⟩ := listed_map_unique.mpr h2
    exact h i t t' ix ix' h1 h1' h2 h2'
  · intro h i t t' ix ix' h1 h1' h2 h2'
    exact h i t t' (listed_map_unique.mp ⟨ix, h1, h1'⟩) (listed_map_unique.mp ⟨ix', h2, h2'⟩)

theorem count_iff {d : Dict String (List Int)} (wf : d.WF) :
    ((d.map (fun p => (p.1, unique p.2))).map Prod.snd |>.map List.length).sum =
      (unique ((d.map (fun p => (p.1, unique p.2))).map Prod.snd).flatten).length
    ↔ Unambiguous d := by
  rw [length_flatten_map_unique, eq_comm, length_unique_eq_iff,
    overlap_iff _ (WF_map_unique wf) ?_, unamb_map_unique]
  intro p hp
  simp only [List.mem_map] at hp
  obtain ⟨q, _, rfl⟩ := hp
  exact nodup_unique _

/-- shape of the result of `init` -/
theorem init_ok_iff {d : Dict String (List Int)} (wf : d.WF) (kw : Dict String KwVal) (c : Config) :
    init d kw = .ok c ↔
      d ≠ [] ∧ Unambiguous d ∧ (∀ p ∈ kw, p.2.allowed = true) ∧
      c = { cycles := d.map (fun p => (p.1, unique p.2))
            typeByIx := buildTypeByIx (d.map (fun p => (p.1, unique p.2)))
            hppcIx := ixFor "hppc" (d.map (fun p => (p.1, unique p.2)))
            rptIx := ixFor "rpt" (d.map (fun p => (p.1, unique p.2)))
            resetIx := ixFor "reset" (d.map (fun p => (p.1, unique p.2)))
            allIx := (buildTypeByIx (d.map (fun p => (p.1, unique p.2)))).keys
            params := kw } := by
  unfold init
  by_cases h0 : d = []
  · simp [h0]
  · have h0' : d.isEmpty = false := by cases d <;> simp_all
    simp only [h0', Bool.false_eq_true, if_false]
    by_cases h1 : Unambiguous d
    · have h1' := (count_iff wf).mpr h1
      simp only [ne_eq, h1', not_true, if_false]
      by_cases h2 : kw.any (fun p => !p.2.allowed) = true
      · simp only [h2, if_true]
        have : ¬ ∀ p ∈ kw, p.2.allowed = true := by
          intro h
          obtain ⟨p, hp, hq⟩ := List.any_eq_true.mp h2
          simp [h p hp] at hq
        exact ⟨fun h => by simp at h, fun h => absurd h.2.2.1 this⟩
      · simp only [h2]
        have : ∀ p ∈ kw, p.2.allowed = true := by
          intro p hp
          by_cases hq : p.2.allowed = true
          · exact hq
          · exact absurd (List.any_eq_true.mpr ⟨p, hp, by simp [hq]⟩) h2
        constructor
        · intro h; exact ⟨h0, h1, this, (Except.ok.inj h).symm⟩
        · intro h; rw [h.2.2.2]; rfl
    · have h1' := mt (count_iff wf).mp h1
      simp only [ne_eq, h1', not_false_eq_true, if_true]
      simp [h1]

/-! ### from_step_numbers -/

/-- closed form of the accumulated dictionary -/
def matched (rows : List Row) (criteria : Dict String (String × List (List Int))) :
    Dict String (List Int) :=
  criteria.map (fun p => (p.1,
    (unique (rows.map Row.cycleIndex)).filter (fun c => anyHit p.2.1 (stepsOf rows c) p.2.2)))

theorem modify_append {κ ν : Type} [DecidableEq κ] (pre post : Dict κ ν) (k : κ) (v : ν)
    (f : ν → ν) (h : k ∉ pre.map Prod.fst) :
    Dict.modify (pre ++ (k, v) :: post) k f = pre ++ (k, f v) :: post := by
  induction pre with
  | nil => simp [Dict.modify]
  | cons q pre ih =>
    obtain ⟨k', v'⟩ := q
    simp only [List.map_cons, List.mem_cons, not_or] at h
    simp only [List.cons_append, Dict.modify, ih h.2]
    rw [if_neg (fun e => h.1 e.symm)]

theorem addCycle_aux (rows : List Row) (c : Int)
    (f : String × String × List (List Int) → List Int)
    (cs : Dict String (String × List (List Int))) (pre : Dict String (List Int))
    (wf : (pre.map Prod.fst ++ cs.map Prod.fst).Nodup) :
    cs.foldl (fun acc p => if anyHit p.2.1 (stepsOf rows c) p.2.2 then
        acc.modify p.1 (· ++ [c]) else acc) (pre ++ cs.map (fun p => (p.1, f p))) =
      pre ++ cs.map (fun p => (p.1, f p ++ if anyHit p.2.1 (stepsOf rows c) p.2.2 then [c] else [])) := by
  induction cs generalizing pre with
  | nil => simp
  | cons q cs ih =>
    have hq : q.1 ∉ pre.map Prod.fst := by
      intro hm
      have := (List.nodup_append.mp wf).2.2 _ hm q.1 (by simp)
      exact this rfl
    simp only [List.foldl_cons, List.map_cons]
    have e : (if anyHit q.2.1 (stepsOf rows c) q.2.2 = true then
        Dict.modify (pre ++ (q.1, f q) :: cs.map (fun p => (p.1, f p))) q.1 (· ++ [c])
        else pre ++ (q.1, f q) :: cs.map (fun p => (p.1, f p))) =
        (pre ++ [(q.1, f q ++ if anyHit q.2.1 (stepsOf rows c) q.2.2 then [c] else [])]) ++
          cs.map (fun p => (p.1, f p)) := by
      split
      · rw [modify_append _ _ _ _ _ hq]; simp
      · simp
    rw [e, ih]
    · simp
    · simpa using wf

theorem foldl_addCycle (rows : List Row) (criteria : Dict String (String × List (List Int)))
    (wf : criteria.WF) (cycles : List Int) (f : String × String × List (List Int) → List Int) :
    cycles.foldl (addCycle rows criteria) (criteria.map (fun p => (p.1, f p))) =
      criteria.map (fun p => (p.1, f p ++
        cycles.filter (fun c => anyHit p.2.1 (stepsOf rows c) p.2.2))) := by
  induction cycles generalizing f with
  | nil => simp
  | cons c cycles ih =>
    have := addCycle_aux rows c f criteria [] (by simpa [Dict.WF, Dict.keys] using wf)
    simp only [List.nil_append] at this
    simp only [List.foldl_cons, addCycle, this]
    have ih' := ih (fun p => f p ++ if anyHit p.2.1 (stepsOf rows c) p.2.2 then [c] else [])
    rw [ih']
    apply List.map_congr_left
    intro p _
    by_cases hh : anyHit p.2.1 (stepsOf rows c) p.2.2 = true <;> simp [hh]

theorem matched_eq (rows : List Row) (criteria : Dict String (String × List (List Int)))
    (wf : criteria.WF) :
    (unique (rows.map Row.cycleIndex)).foldl (addCycle rows criteria)
      (criteria.map (fun p => (p.1, []))) = matched rows criteria := by
  rw [foldl_addCycle rows criteria wf _ (fun _ => [])]
  simp [matched]

theorem WF_matched (rows : List Row) (criteria : Dict String (String × List (List Int)))
    (wf : criteria.WF) : (matched rows criteria).WF := by
  unfold Dict.WF Dict.keys matched at *
  simpa [List.map_map, Function.comp_def] using wf

theorem fromStepNumbers_ok {rows : List Row} {criteria : Dict String (String × List (List Int))}
    {kw : Dict String KwVal} {c : Config} (h : fromStepNumbers true rows criteria kw = .ok c) :
    (∀ t rule ps, (t, (rule, ps)) ∈ criteria → rule = "contains" ∨ rule = "exact") ∧
    init ((unique (rows.map Row.cycleIndex)).foldl (addCycle rows criteria)
      (criteria.map (fun p => (p.1, [])))) kw = .ok c := by
  unfold fromStepNumbers at h
  simp only [Bool.not_true, Bool.false_eq_true, if_false] at h
  split at h
  · cases h
  · rename_i hr
    refine ⟨?_, h⟩
    intro t rule ps hm
    have hr' := Bool.eq_false_iff.mpr hr
    have := (List.any_eq_false.mp hr') _ hm
    simp only [Bool.not_eq_true', Bool.not_eq_false, Bool.or_eq_true, beq_iff_eq] at this
    exact this

theorem mem_stepsOf (rows : List Row) (c s : Int) : s ∈ stepsOf rows c ↔ (⟨c, s⟩ : Row) ∈ rows := by
  unfold stepsOf
  simp only [mem_unique, List.mem_map, List.mem_filter, decide_eq_true_eq]
  constructor
  · rintro ⟨⟨c', s'⟩, ⟨h, rfl⟩, rfl⟩; exact h
  · intro h; exact ⟨_, ⟨h, rfl⟩, rfl⟩

theorem subset_eq_of_length {l m : List Int} (hl : l.Nodup) (hm : m.Nodup) (hs : ∀ x ∈ m, x ∈ l)
    (hlen : l.length = m.length) : ∀ x, x ∈ l ↔ x ∈ m := by
  induction m generalizing l with
  | nil =>
    have : l = [] := List.length_eq_zero_iff.mp hlen
    subst this; simp
  | cons a m ih =>
    intro x
    have ha : a ∈ l := hs a (List.mem_cons_self ..)
    have hm' := List.nodup_cons.mp hm
    have h1 : (l.erase a).Nodup := hl.erase a
    have h2 : (l.erase a).length = m.length := by
      rw [List.length_erase_of_mem ha, hlen]; simp
    have h3 : ∀ x ∈ m, x ∈ l.erase a := by
      intro x hx
      exact (List.mem_erase_of_ne (fun (e : x = a) => hm'.1 (e ▸ hx))).mpr (hs x (List.mem_cons_of_mem _ hx))
    have := ih h1 hm'.2 h3 h2 x
    by_cases e : x = a
    · subst e; simp [ha]
    · rw [List.mem_erase_of_ne e] at this
      rw [this]; simp [e]

theorem patternHit_iff (rule : String) (hr : rule = "contains" ∨ rule = "exact")
    (uniq : List Int) (hu : uniq.Nodup) (p : List Int) :
    patternHit rule uniq p = true ↔ PatternMatches rule p (· ∈ uniq) := by
  have hne : ("exact" : String) ≠ "contains" := by decide
  have hall : p.all (fun sn => uniq.contains sn) = true ↔ ∀ s ∈ p, s ∈ uniq := by
    simp [List.all_eq_true]
  have hex : (p.all (fun sn => uniq.contains sn) && uniq.length == (unique p).length) = true ↔
      ∀ s, s ∈ uniq ↔ s ∈ p := by
    rw [Bool.and_eq_true, hall, beq_iff_eq]
    constructor
    · rintro ⟨h1, h2⟩ s
      rw [subset_eq_of_length hu (nodup_unique p) (fun x hx => h1 x (mem_unique.mp hx)) h2 s,
        mem_unique]
    · intro h
      refine ⟨fun s hs => (h s).mpr hs, ?_⟩
      apply Nat.le_antisymm
      · exact (List.Nodup.subperm hu (fun x hx => mem_unique.mpr ((h x).mp hx))).length_le
      · exact (List.Nodup.subperm (nodup_unique p)
          (fun x hx => (h x).mpr (mem_unique.mp hx))).length_le
  unfold patternHit PatternMatches
  rcases hr with rfl | rfl
  · simp only [beq_self_eq_true, Bool.true_and]
    by_cases ha : p.all (fun sn => uniq.contains sn) = true
    · simp only [ha, if_true, true_iff]
      exact Or.inl ⟨trivial, hall.mp ha⟩
    · simp only [ha]
      have : ¬ ∀ s ∈ p, s ∈ uniq := mt hall.mpr ha
      simp [this, hne.symm]
  · have : (("exact" : String) == "contains") = false := by decide
    simp only [this, Bool.false_and, Bool.false_eq_true, if_false]
    rw [hex]
    simp

theorem anyHit_iff (rule : String) (uniq : List Int) (ps : List (List Int)) :
    anyHit rule uniq ps = true ↔ ∃ p ∈ ps, patternHit rule uniq p = true := by
  induction ps with
  | nil => simp [anyHit]
  | cons p ps ih =>
    unfold anyHit
    by_cases h : patternHit rule uniq p = true <;> simp [h, ih]

theorem listed_matched (rows : List Row) (criteria : Dict String (String × List (List Int)))
    (hr : ∀ t rule ps, (t, (rule, ps)) ∈ criteria → rule = "contains" ∨ rule = "exact")
    (i : Int) (t : String) :
    Listed (matched rows criteria) i t ↔
      (∃ s, (⟨i, s⟩ : Row) ∈ rows) ∧ ∃ rule patterns, (t, (rule, patterns)) ∈ criteria ∧
        ∃ p ∈ patterns, PatternMatches rule p (fun s => (⟨i, s⟩ : Row) ∈ rows) := by
  have hocc : i ∈ unique (rows.map Row.cycleIndex) ↔ ∃ s, (⟨i, s⟩ : Row) ∈ rows := by
    rw [mem_unique, List.mem_map]
    constructor
    · rintro ⟨⟨c, s⟩, h, rfl⟩; exact ⟨s, h⟩
    · rintro ⟨s, h⟩; exact ⟨_, h, rfl⟩
  have hpm : ∀ rule p, PatternMatches rule p (· ∈ stepsOf rows i) ↔
      PatternMatches rule p (fun s => (⟨i, s⟩ : Row) ∈ rows) := by
    intro rule p; unfold PatternMatches; simp only [mem_stepsOf]
  unfold Listed matched
  constructor
  · rintro ⟨ix, h, hi⟩
    obtain ⟨⟨t', rule, ps⟩, hm, e⟩ := List.mem_map.mp h
    simp only [Prod.mk.injEq] at e
    obtain ⟨rfl, rfl⟩ := e
    rw [List.mem_filter] at hi
    obtain ⟨h1, h2⟩ := hi
    obtain ⟨p, hp, hh⟩ := (anyHit_iff _ _ _).mp h2
    refine ⟨hocc.mp h1, rule, ps, hm, p, hp, ?_⟩
    exact (hpm rule p).mp ((patternHit_iff rule (hr _ _ _ hm) _ (nodup_unique _) p).mp hh)
  · rintro ⟨h1, rule, ps, hm, p, hp, hh⟩
    refine ⟨_, List.mem_map.mpr ⟨_, hm, rfl⟩, ?_⟩
    rw [List.mem_filter]
    refine ⟨hocc.mpr h1, (anyHit_iff _ _ _).mpr ⟨p, hp, ?_⟩⟩
    exact (patternHit_iff rule (hr _ _ _ hm) _ (nodup_unique _) p).mpr ((hpm rule p).mpr hh)

end Beep.Diagnostic
