import Verif.Props.Dash
import Verif.Model.Schedule
import Verif.Spec.Schedule
/-
C60: labelled edits of a schedule.
-/
namespace Beep.Props.Schedule
open Beep Beep.Arbin Beep.Dash Beep.Spec.Dash Beep.Spec.Schedule Beep.Props.Dash

/-- the dictionaries on the way to a written path -/
theorem set_prefix (o o' : Obj) (p q : List Str) (w : Val) (h : setP o p w = .ok o') (hq : q <+: p) (hne : q ≠ p)
    (hq0 : q ≠ []) : ∃ s, getP o' q = some (.obj s) := by
  induction p generalizing o o' q with
  | nil => exact absurd (List.prefix_nil.mp hq) hne
  | cons k p ih =>
    cases q with
    | nil => exact absurd rfl hq0
    | cons x q =>
      rw [List.cons_prefix_cons] at hq
      obtain ⟨rfl, hq⟩ := hq
      cases p with
      | nil => rw [List.prefix_nil.mp hq] at hne; exact absurd rfl hne
      | cons k' p =>
        rw [setP] at h
        simp only [bind, Except.bind] at h
        have key : ∀ s s', setP s (k' :: p) w = .ok s' → o' = o.put x (.obj s') → ∃ t, getP o' (x :: q) = some (.obj t) := by
          intro s s' hs he
          cases q with
          | nil => exact ⟨s', by rw [he, getP, find_put, if_pos rfl]⟩
          | cons y q =>
            obtain ⟨t, ht⟩ := ih s s' (y :: q) hs hq (fun e => hne (by rw [e])) (by simp)
            exact ⟨t, by rw [he, getP, find_put, if_pos rfl]; exact ht⟩
        split at h
        · cases h
        · split at h
          · cases h
          · rename_i s' hs'; cases h; exact key _ _ hs' rfl
        · split at h
          · cases h
          · rename_i s' hs'; cases h; exact key _ _ hs' rfl

theorem unblocked_set (o o' : Obj) (p p' : List Str) (w : Val) (h : setP o p w = .ok o') (ha : Apart p p')
    (hb : ¬ Blocked o p') : ¬ Blocked o' p' := by
  rintro ⟨q, s, hq, hne, hg⟩
  by_cases h1 : q <+: p
  · by_cases h2 : q = p
    · subst h2; exact ha.1 hq
    · by_cases h3 : q = []
      · subst h3; cases hg
      · obtain ⟨t, ht⟩ := set_prefix o o' p q w h h1 h2 h3
        rw [ht] at hg; cases hg
  · by_cases h2 : p <+: q
    · exact ha.1 (h2.trans hq)
    · rw [C57_set_other o o' p q w h ⟨h2, h1⟩] at hg
      exact hb ⟨q, s, hq, hne, hg⟩

/-- writing a list of values -/
def runSets : Obj → List (List Str × Val) → Except Err Obj
  | o, [] => .ok o
  | o, t :: ts => do runSets (← setP o t.1 t.2) ts

theorem apart_symm {p q : List Str} (h : Apart p q) : Apart q p := ⟨h.2, h.1⟩

theorem runSets_spec (o : Obj) (ts : List (List Str × Val)) (h0 : ∀ t ∈ ts, t.1 ≠ []) (hb : ∀ t ∈ ts, ¬ Blocked o t.1)
    (ha : ts.Pairwise (fun a b => Apart a.1 b.1)) : ∃ o', runSets o ts = .ok o' ∧ Edited o o' ts := by
  induction ts generalizing o with
  | nil => exact ⟨o, rfl, (fun t ht => nomatch ht), fun q _ => rfl⟩
  | cons t ts ih =>
    rw [List.pairwise_cons] at ha
    cases hs : setP o t.1 t.2 with
    | error e =>
      exact absurd ((C57_set_fails o t.1 t.2 (h0 t (List.mem_cons_self ..))).mp ⟨e, hs⟩) (hb t (List.mem_cons_self ..))
    | ok o1 =>
      obtain ⟨o', hr, h1, h2⟩ := ih o1 (fun t' ht' => h0 t' (List.mem_cons_of_mem _ ht'))
        (fun t' ht' => unblocked_set o o1 t.1 t'.1 t.2 hs (ha.1 t' ht') (hb t' (List.mem_cons_of_mem _ ht'))) ha.2
      refine ⟨o', by rw [runSets, hs]; exact hr, ?_, ?_⟩
      · intro t' ht'
        rcases List.mem_cons.mp ht' with e | e
        · subst e
          rw [h2 t'.1 (fun x hx => apart_symm (ha.1 x hx))]
          exact C57_get_set o o1 t'.1 t'.2 hs
        · exact h1 t' e
      · intro q hq
        rw [h2 q (fun x hx => hq x (List.mem_cons_of_mem _ hx))]
        exact C57_set_other o o1 t.1 q t.2 hs (hq t (List.mem_cons_self ..))

theorem apart_step (x y : Str) (p q : List Str) (h : x ≠ y) : Apart (kSchedule :: x :: p) (kSchedule :: y :: q) := by
  constructor
  · intro e
    rw [List.cons_prefix_cons, List.cons_prefix_cons] at e
    exact h e.2.1
  · intro e
    rw [List.cons_prefix_cons, List.cons_prefix_cons] at e
    exact h e.2.1.symm

/-- the paths written by `setSteps` -/
def stepTargets (label key : Str) (v : Val) (first : Bool) (o : Obj) (xs : List Str) : List (List Str × Val) :=
  ((if first then (xs.filter (hasLabel label o)).take 1 else xs.filter (hasLabel label o))).map
    (fun x => ([kSchedule, x, key], v))

theorem setSteps_eq (label key : Str) (v : Val) (first : Bool) (o : Obj) (xs : List Str) (hn : xs.Nodup) :
    setSteps label key v first o xs = runSets o (stepTargets label key v first o xs) := by
  induction xs generalizing o with
  | nil => cases first <;> rfl
  | cons x xs ih =>
    rw [List.nodup_cons] at hn
    rw [setSteps]
    unfold stepTargets
    by_cases hl : hasLabel label o x
    · rw [if_pos hl]
      have hf : (x :: xs).filter (hasLabel label o) = x :: xs.filter (hasLabel label o) := by
        rw [List.filter_cons, if_pos hl]
      rw [hf]
      cases first with
      | true =>
        simp only [List.take_succ_cons, List.take_zero, ↓reduceIte, List.map_cons, List.map_nil, runSets]
        cases setP o [kSchedule, x, key] v <;> rfl
      | false =>
        simp only [List.map_cons, runSets, Bool.false_eq_true, ↓reduceIte]
        cases hs : setP o [kSchedule, x, key] v with
        | error e => rfl
        | ok o1 =>
          simp only [bind, Except.bind]
          rw [ih o1 hn.2]
          congr 1
          unfold stepTargets
          rw [if_neg (by decide)]
          congr 1
          apply List.filter_congr
          intro y hy
          have hxy : x ≠ y := by rintro rfl; exact hn.1 hy
          unfold hasLabel
          rw [C57_set_other o o1 _ [kSchedule, y, kLabel] v hs (apart_step x y _ _ hxy)]
    · rw [if_neg hl, ih o hn.2]
      have hf : (x :: xs).filter (hasLabel label o) = xs.filter (hasLabel label o) := by
        rw [List.filter_cons, if_neg hl]
      rw [hf]
      rfl

theorem nodup_keys (o : Obj) (h : Distinct o) : o.keys.Nodup := by
  induction o with
  | nil => exact List.nodup_nil
  | leaf k v r ih => exact List.nodup_cons.mpr ⟨h.1, ih h.2⟩
  | node k s r _ ih => exact List.nodup_cons.mpr ⟨h.1, ih h.2.2⟩

/-- a path with an entry is not blocked on the way -/
theorem open_of_get (o : Obj) (p : List Str) (k k' : Str) (v : Val) (h : getP o (p ++ [k]) = some v) :
    ¬ Blocked o (p ++ [k']) := by
  rintro ⟨q, s, hq, hne, hg⟩
  have hqp : q <+: p := by
    rcases List.prefix_concat_iff.mp hq with e | e
    · exact absurd e hne
    · exact e
  obtain ⟨r, rfl⟩ := hqp
  clear hq hne
  induction q generalizing o with
  | nil => cases hg
  | cons x q ih =>
    cases q with
    | nil =>
      rw [getP] at hg
      rw [show [x] ++ r ++ [k] = x :: (r ++ [k]) by simp] at h
      cases r with
      | nil => rw [List.nil_append, getP, hg] at h; cases h
      | cons y r => rw [List.cons_append, getP, hg] at h; cases h
    | cons y q =>
      rw [getP] at hg
      cases hf : o.find x with
      | none => rw [hf] at hg; cases hg
      | some w =>
        cases w with
        | str t => rw [hf] at hg; cases hg
        | obj s' =>
          rw [hf] at hg
          simp only [List.cons_append, getP, hf] at h
          exact ih s' hg (by simpa using h)

theorem hasLabel_iff (label : Str) (o : Obj) (x : Str) :
    hasLabel label o x = true ↔ getP o [kSchedule, x, kLabel] = some (.str label) := by
  unfold hasLabel; exact decide_eq_true_iff

/-- C60: `set_labelled_steps` changes exactly the entry of the first labelled step, or of all of
them.  Missing: an error when there is no such step. -/
theorem C60_steps_partial (o s : Obj) (label key : Str) (v : Val) (first : Bool) (hd : Distinct o)
    (hs : o.find "Schedule".toList = some (.obj s)) :
    ∃ o', setLabelledSteps o label key v first = .ok o' ∧
      Edited o o' ((if first then (labelled o label).take 1 else labelled o label).map
        (fun x => (["Schedule".toList, x, key], v))) := by
  have hn : s.keys.Nodup := nodup_keys s (distinct_sub o _ s hd hs)
  have hk : stepKeys o = .ok s.keys := by unfold stepKeys; rw [show kSchedule = "Schedule".toList from rfl, hs]
  have hlab : labelled o label = s.keys.filter (hasLabel label o) := by unfold labelled; rw [hs]; rfl
  have ht : (if first then (labelled o label).take 1 else labelled o label).map
        (fun x => (["Schedule".toList, x, key], v)) = stepTargets label key v first o s.keys := by
    rw [hlab]; rfl
  rw [ht]
  unfold setLabelledSteps
  rw [hk]
  simp only [bind, Except.bind]
  rw [setSteps_eq label key v first o s.keys hn]
  have hsub : ∀ x ∈ (if first then (s.keys.filter (hasLabel label o)).take 1 else s.keys.filter (hasLabel label o)),
      hasLabel label o x = true := by
    intro x hx
    have : x ∈ s.keys.filter (hasLabel label o) := by
      split at hx
      · exact List.mem_of_mem_take hx
      · exact hx
    exact (List.mem_filter.mp this).2
  apply runSets_spec
  · intro t ht
    obtain ⟨x, _, rfl⟩ := List.mem_map.mp ht
    simp
  · intro t ht
    obtain ⟨x, hx, rfl⟩ := List.mem_map.mp ht
    have := (hasLabel_iff label o x).mp (hsub x hx)
    exact open_of_get o [kSchedule, x] kLabel key _ this
  · rw [stepTargets, List.pairwise_map]
    have hnd : (if first then (s.keys.filter (hasLabel label o)).take 1 else s.keys.filter (hasLabel label o)).Nodup := by
      split
      · exact (List.take_sublist 1 _).nodup (hn.filter _)
      · exact hn.filter _
    exact hnd.imp (fun {a b} h => apart_step a b _ _ h)

/-- C60 fails: when no step has the label, nothing is changed and no error is raised. -/
theorem C60_missing_violated (o s : Obj) (label key : Str) (v : Val) (first : Bool) (hd : Distinct o)
    (hs : o.find "Schedule".toList = some (.obj s)) (hl : labelled o label = []) :
    setLabelledSteps o label key v first = .ok o := by
  have hn : s.keys.Nodup := nodup_keys s (distinct_sub o _ s hd hs)
  have hk : stepKeys o = .ok s.keys := by unfold stepKeys; rw [show kSchedule = "Schedule".toList from rfl, hs]
  have hlab : s.keys.filter (hasLabel label o) = [] := by unfold labelled at hl; rw [hs] at hl; exact hl
  unfold setLabelledSteps
  rw [hk]
  simp only [bind, Except.bind]
  rw [setSteps_eq label key v first o s.keys hn]
  unfold stepTargets
  rw [hlab]
  cases first <;> rfl

/-! ### limits -/

theorem runSets_append (o : Obj) (a b : List (List Str × Val)) :
    runSets o (a ++ b) = (runSets o a).bind (fun o' => runSets o' b) := by
  induction a generalizing o with
  | nil => rfl
  | cons t a ih =>
    rw [List.cons_append, runSets, runSets]
    cases setP o t.1 t.2 with
    | error e => rfl
    | ok o1 => exact ih o1

theorem runSets_other (o o' : Obj) (ts : List (List Str × Val)) (h : runSets o ts = .ok o') (q : List Str)
    (hq : ∀ t ∈ ts, Apart t.1 q) : getP o' q = getP o q := by
  induction ts generalizing o with
  | nil => cases h; rfl
  | cons t ts ih =>
    rw [runSets] at h
    cases hs : setP o t.1 t.2 with
    | error e => rw [hs] at h; cases h
    | ok o1 =>
      rw [hs] at h
      rw [ih o1 h (fun x hx => hq x (List.mem_cons_of_mem _ hx))]
      exact C57_set_other o o1 t.1 q t.2 hs (hq t (List.mem_cons_self ..))

/-- the writes for one limit -/
def limitSets (var : Str) (sign value : Val) (x : Str) (step : Obj) (l : Str) : List (List Str × Val) :=
  if getP step [l, kStepLimit] = some (.str ['1']) ∧ getP step [l, kLeft] = some (.str var) then
    [([kSchedule, x, l, kSign], sign), ([kSchedule, x, l, kRight], value)]
  else []

theorem setLimits_eq (var : Str) (sign value : Val) (x : Str) (step o : Obj) (ls : List Str)
    (h : ∀ l ∈ ls, ∃ d, step.find l = some (.obj d) ∧ (d.find kStepLimit).isSome ∧ (d.find kLeft).isSome) :
    setLimits var sign value x step o ls = runSets o (ls.flatMap (limitSets var sign value x step)) := by
  induction ls generalizing o with
  | nil => rfl
  | cons l ls ih =>
    obtain ⟨d, hd, h1, h2⟩ := h l (List.mem_cons_self ..)
    have ih' := fun o => ih o (fun y hy => h y (List.mem_cons_of_mem _ hy))
    obtain ⟨flag, hflag⟩ := Option.isSome_iff_exists.mp h1
    obtain ⟨left, hleft⟩ := Option.isSome_iff_exists.mp h2
    rw [setLimits, hd]
    simp only [hflag, hleft]
    rw [List.flatMap_cons]
    have e1 : getP step [l, kStepLimit] = some flag := by rw [getP, hd]; exact hflag
    have e2 : getP step [l, kLeft] = some left := by rw [getP, hd]; exact hleft
    unfold limitSets
    rw [e1, e2]
    by_cases c1 : flag = .str ['1']
    · rw [if_pos c1]
      by_cases c2 : left = .str var
      · rw [if_pos c2, if_pos ⟨by rw [c1], by rw [c2]⟩]
        rw [List.cons_append, runSets]
        cases setP o [kSchedule, x, l, kSign] sign with
        | error e => rfl
        | ok o1 =>
          simp only [bind, Except.bind]
          rw [List.cons_append, runSets]
          cases setP o1 [kSchedule, x, l, kRight] value with
          | error e => rfl
          | ok o2 => exact ih' o2
      · rw [if_neg c2, if_neg (fun hh => c2 (Option.some.inj hh.2))]
        exact ih' o
    · rw [if_neg c1, if_neg (fun hh => c1 (Option.some.inj hh.1))]
      exact ih' o

/-- the sections of a step that are limits -/
def limitNames : Obj → List Str
  | .nil => []
  | .leaf _ _ r => limitNames r
  | .node k _ r => if kLimit.isPrefixOf k then k :: limitNames r else limitNames r

theorem headings_nil (o : Obj) (h : ∀ k d, o.find k ≠ some (.obj d)) (hd : Distinct o) : headings o = [] := by
  induction o with
  | nil => rfl
  | leaf k v r ih =>
    apply ih _ hd.2
    intro k' d hf
    apply h k' d
    rw [Obj.find, if_neg, hf]
    rintro rfl
    have := (find_none r k).mpr hd.1
    rw [this] at hf; cases hf
  | node k s r _ _ => exact absurd (by simp [Obj.find]) (h k s)

theorem limitKeys_eq (step : Obj) (hd : Distinct step)
    (h : ∀ l d, step.find l = some (.obj d) → kLimit.isPrefixOf l = true → headings d = []) :
    limitKeys step = .ok (limitNames step) := by
  have key : ∀ o : Obj, Distinct o → (∀ l d, o.find l = some (.obj d) → kLimit.isPrefixOf l = true → headings d = []) →
      (headings o).filter (fun h => kLimit.isPrefixOf (h.head?.getD [])) = (limitNames o).map (fun k => [k]) := by
    intro o
    induction o with
    | nil => intro _ _; rfl
    | leaf k v r ih =>
      intro hd h
      exact ih hd.2 (fun l d hf hp => h l d (by
        rw [Obj.find, if_neg, hf]
        rintro rfl
        have := (find_none r k).mpr hd.1
        rw [this] at hf; cases hf) hp)
    | node k s r _ ih =>
      intro hd h
      have hr := ih hd.2.2 (fun l d hf hp => h l d (by
        rw [Obj.find, if_neg, hf]
        rintro rfl
        have := (find_none r k).mpr hd.1
        rw [this] at hf; cases hf) hp)
      rw [headings, List.filter_append, hr, limitNames, List.filter_cons]
      by_cases hk : kLimit.isPrefixOf k = true
      · rw [h k s (by simp [Obj.find]) hk, if_pos (show kLimit.isPrefixOf (([k] : List Str).head?.getD []) = true from hk),
          if_pos hk]
        rfl
      · rw [if_neg (show ¬ kLimit.isPrefixOf (([k] : List Str).head?.getD []) = true from hk), if_neg hk]
        have : ((headings s).map (fun h => k :: h)).filter (fun h => kLimit.isPrefixOf (h.head?.getD [])) = [] := by
          rw [List.filter_eq_nil_iff]
          intro a ha
          obtain ⟨b, _, rfl⟩ := List.mem_map.mp ha
          exact hk
        rw [this]; rfl
  unfold limitKeys
  rw [key step hd h]
  generalize limitNames step = l
  induction l with
  | nil => rfl
  | cons a l ih => rw [List.map_cons, mapE, ih]; rfl

theorem mem_limitNames (o : Obj) (hd : Distinct o) (l : Str) :
    l ∈ limitNames o ↔ kLimit.isPrefixOf l = true ∧ ∃ d, o.find l = some (.obj d) := by
  induction o with
  | nil => simp [limitNames, Obj.find]
  | leaf k v r ih =>
    rw [limitNames, ih hd.2, Obj.find]
    by_cases hk : k = l
    · subst hk
      rw [if_pos rfl, (find_none r k).mpr hd.1]; simp
    · rw [if_neg hk]
  | node k s r _ ih =>
    rw [limitNames, Obj.find]
    by_cases hk : k = l
    · subst hk
      rw [if_pos rfl]
      split
      · rename_i hp; simp [hp]
      · rename_i hp
        rw [ih hd.2.2]
        exact ⟨fun h => absurd h.1 hp, fun h => absurd h.1 hp⟩
    · rw [if_neg hk]
      split
      · rw [List.mem_cons, ih hd.2.2]
        constructor
        · rintro (e | e)
          · exact absurd e.symm hk
          · exact e
        · exact Or.inr
      · exact ih hd.2.2

theorem nodup_limitNames (o : Obj) (hd : Distinct o) : (limitNames o).Nodup := by
  induction o with
  | nil => exact List.nodup_nil
  | leaf k v r ih => exact ih hd.2
  | node k s r _ ih =>
    rw [limitNames]
    split
    · rw [List.nodup_cons]
      refine ⟨?_, ih hd.2.2⟩
      intro hm
      obtain ⟨d, hf⟩ := ((mem_limitNames r hd.2.2 k).mp hm).2
      rw [(find_none r k).mpr hd.1] at hf
      cases hf
    · exact ih hd.2.2

/-- the writes for one step -/
def stepLimitSets (label var : Str) (sign value : Val) (o : Obj) (x : Str) : List (List Str × Val) :=
  if hasLabel label o x then
    match getP o [kSchedule, x] with
    | some (.obj step) => (limitNames step).flatMap (limitSets var sign value x step)
    | _ => []
  else []

/-- every limit of the step is complete -/
def Complete (o : Obj) (x : Str) : Prop :=
  ∃ step, getP o [kSchedule, x] = some (.obj step) ∧ Distinct step ∧
    (∀ l d, step.find l = some (.obj d) → kLimit.isPrefixOf l = true →
      headings d = [] ∧ (d.find kStepLimit).isSome ∧ (d.find kLeft).isSome)

theorem limitSets_path (var : Str) (sign value : Val) (x : Str) (step : Obj) (l : Str) (t : List Str × Val)
    (h : t ∈ limitSets var sign value x step l) : ∃ k, t.1 = [kSchedule, x, l, k] := by
  unfold limitSets at h
  split at h
  · simp only [List.mem_cons, List.not_mem_nil, or_false] at h
    rcases h with rfl | rfl
    · exact ⟨_, rfl⟩
    · exact ⟨_, rfl⟩
  · cases h

theorem stepLimitSets_path (label var : Str) (sign value : Val) (o : Obj) (x : Str) (t : List Str × Val)
    (h : t ∈ stepLimitSets label var sign value o x) : ∃ l k, t.1 = [kSchedule, x, l, k] := by
  unfold stepLimitSets at h
  split at h
  · split at h
    · obtain ⟨l, _, hl⟩ := List.mem_flatMap.mp h
      obtain ⟨k, hk⟩ := limitSets_path _ _ _ _ _ _ _ hl
      exact ⟨l, k, hk⟩
    · cases h
  · cases h

theorem setLimitSteps_eq (label var : Str) (sign value : Val) (o : Obj) (xs : List Str) (hn : xs.Nodup)
    (hc : ∀ x ∈ xs, hasLabel label o x = true → Complete o x) :
    setLimitSteps label var sign value o xs = runSets o (xs.flatMap (stepLimitSets label var sign value o)) := by
  induction xs generalizing o with
  | nil => rfl
  | cons x xs ih =>
    rw [List.nodup_cons] at hn
    rw [setLimitSteps, List.flatMap_cons, runSets_append]
    by_cases hl : hasLabel label o x = true
    · obtain ⟨step, hs, hd, hlim⟩ := hc x (List.mem_cons_self ..) hl
      have e1 : stepLimitSets label var sign value o x = (limitNames step).flatMap (limitSets var sign value x step) := by
        unfold stepLimitSets; rw [if_pos hl, hs]
      rw [if_pos hl, hs]
      simp only
      rw [limitKeys_eq step hd (fun l d hf hp => (hlim l d hf hp).1)]
      simp only [bind, Except.bind]
      rw [setLimits_eq var sign value x step o _ (fun l hl' => by
        obtain ⟨hp, d, hf⟩ := (mem_limitNames step hd l).mp hl'
        exact ⟨d, hf, (hlim l d hf hp).2⟩)]
      rw [← e1]
      cases hr : runSets o (stepLimitSets label var sign value o x) with
      | error e => rfl
      | ok o1 =>
        simp only
        have hoth : ∀ y ∈ xs, ∀ p, getP o1 (kSchedule :: y :: p) = getP o (kSchedule :: y :: p) := by
          intro y hy p
          apply runSets_other o o1 _ hr
          intro t ht
          obtain ⟨l, k, e⟩ := stepLimitSets_path _ _ _ _ _ _ _ ht
          rw [e]
          exact apart_step x y _ _ (by rintro rfl; exact hn.1 hy)
        have hlab : ∀ y ∈ xs, hasLabel label o1 y = hasLabel label o y := by
          intro y hy; unfold hasLabel; rw [hoth y hy [kLabel]]
        rw [ih o1 hn.2]
        · congr 1
          apply List.flatMap_congr
          intro y hy
          unfold stepLimitSets
          rw [hlab y hy, hoth y hy []]
        · intro y hy hyl
          rw [hlab y hy] at hyl
          obtain ⟨st, h1, h2⟩ := hc y (List.mem_cons_of_mem _ hy) hyl
          exact ⟨st, by rw [hoth y hy []]; exact h1, h2⟩
    · rw [if_neg hl]
      have e1 : stepLimitSets label var sign value o x = [] := by unfold stepLimitSets; rw [if_neg hl]
      rw [e1]
      exact ih o hn.2 (fun y hy => hc y (List.mem_cons_of_mem _ hy))

theorem getP_sub (o step : Obj) (x : Str) (h : getP o [kSchedule, x] = some (.obj step)) (l : Str) (p : List Str) :
    getP o (kSchedule :: x :: l :: p) = getP step (l :: p) := by
  rw [getP] at h
  cases hf : o.find kSchedule with
  | none => rw [hf] at h; cases h
  | some w =>
    cases w with
    | str t => rw [hf] at h; cases h
    | obj s =>
      rw [hf] at h
      simp only [getP] at h
      rw [getP, hf]
      simp only
      rw [getP, h]

theorem apart_limit (x l l' k k' : Str) (h : l ≠ l' ∨ k ≠ k') :
    Apart [kSchedule, x, l, k] [kSchedule, x, l', k'] := by
  have aux : ∀ (l l' k k' : Str), l ≠ l' ∨ k ≠ k' → ¬ [kSchedule, x, l, k] <+: [kSchedule, x, l', k'] := by
    intro l l' k k' h e
    rw [List.cons_prefix_cons, List.cons_prefix_cons, List.cons_prefix_cons, List.cons_prefix_cons] at e
    rcases h with h | h
    · exact h e.2.2.1
    · exact h e.2.2.2.1
  exact ⟨aux l l' k k' h, aux l' l k' k (h.imp (fun e e' => e e'.symm) (fun e e' => e e'.symm))⟩

/-- C60: `set_labelled_limits` changes exactly the comparison and the value of the limits of the
labelled steps that stop the step on the given variable.  The steps' limits have to be complete:
each says whether it stops the step and what it compares, and has no sections inside. -/
theorem C60_limits (o s : Obj) (label var : Str) (sign value : Val) (hd : Distinct o)
    (hs : o.find "Schedule".toList = some (.obj s))
    (hc : ∀ x ∈ labelled o label, ∀ l, IsLimit o x l →
      (∃ v, getP o ["Schedule".toList, x, l, "m_bStepLimit".toList] = some v) ∧
      (∃ v, getP o ["Schedule".toList, x, l, "Equation0_szLeft".toList] = some v) ∧
      ∀ k d, getP o ["Schedule".toList, x, l, k] ≠ some (.obj d)) :
    ∃ o', setLabelledLimits o label var sign value = .ok o' ∧
      (∀ x ∈ labelled o label, ∀ l, IsLimit o x l → Stops o var x l →
        getP o' ["Schedule".toList, x, l, "Equation0_szCompareSign".toList] = some sign ∧
        getP o' ["Schedule".toList, x, l, "Equation0_szRight".toList] = some value) ∧
      ∀ q, (∀ x ∈ labelled o label, ∀ l, IsLimit o x l → Stops o var x l →
          Apart ["Schedule".toList, x, l, "Equation0_szCompareSign".toList] q ∧
          Apart ["Schedule".toList, x, l, "Equation0_szRight".toList] q) →
        getP o' q = getP o q := by
  have hds : Distinct s := distinct_sub o _ s hd hs
  have hn : s.keys.Nodup := nodup_keys s hds
  have hk : stepKeys o = .ok s.keys := by unfold stepKeys; rw [show kSchedule = "Schedule".toList from rfl, hs]
  have hlab : labelled o label = s.keys.filter (hasLabel label o) := by unfold labelled; rw [hs]; rfl
  have hmem : ∀ x, x ∈ labelled o label ↔ x ∈ s.keys ∧ hasLabel label o x = true := by
    intro x; rw [hlab, List.mem_filter]
  have hS : ∀ x p, getP o (kSchedule :: x :: p) = getP s (x :: p) := by
    intro x p
    rw [getP, show kSchedule = "Schedule".toList from rfl, hs]
  have hcomp : ∀ x ∈ s.keys, hasLabel label o x = true → Complete o x := by
    intro x hx hl
    have hl' := (hasLabel_iff label o x).mp hl
    rw [hS, getP] at hl'
    cases hf : s.find x with
    | none => rw [hf] at hl'; cases hl'
    | some w =>
      cases w with
      | str t => rw [hf] at hl'; cases hl'
      | obj step =>
        have hstep : getP o [kSchedule, x] = some (.obj step) := by rw [hS]; exact hf
        have hdst : Distinct step := distinct_sub s x step hds hf
        refine ⟨step, hstep, hdst, ?_⟩
        intro l d hld hp
        have hgl : getP o [kSchedule, x, l] = some (.obj d) := by
          rw [getP_sub o step x hstep]; exact hld
        have hsub : ∀ k, getP o [kSchedule, x, l, k] = d.find k := by
          intro k; rw [getP_sub o step x hstep, getP, hld]; rfl
        obtain ⟨⟨v1, h1⟩, ⟨v2, h2⟩, h3⟩ := hc x ((hmem x).mpr ⟨hx, hl⟩) l ⟨List.isPrefixOf_iff_prefix.mp hp, d, hgl⟩
        refine ⟨headings_nil d ?_ (distinct_sub step l d hdst hld), ?_, ?_⟩
        · intro k d' hf'
          exact h3 k d' ((hsub k).trans hf')
        · rw [← hsub]; exact Option.isSome_iff_exists.mpr ⟨v1, h1⟩
        · rw [← hsub]; exact Option.isSome_iff_exists.mpr ⟨v2, h2⟩
  -- the targets
  have htarget : ∀ x l, x ∈ labelled o label → IsLimit o x l → Stops o var x l →
      ([kSchedule, x, l, kSign], sign) ∈ s.keys.flatMap (stepLimitSets label var sign value o) ∧
      ([kSchedule, x, l, kRight], value) ∈ s.keys.flatMap (stepLimitSets label var sign value o) := by
    intro x l hx hil hst
    obtain ⟨hxk, hxl⟩ := (hmem x).mp hx
    obtain ⟨step, hstep, hdst, _⟩ := hcomp x hxk hxl
    have hil2 : ∃ d, step.find l = some (.obj d) := by
      obtain ⟨d, hd'⟩ := hil.2
      have : getP o [kSchedule, x, l] = some (.obj d) := hd'
      rw [getP_sub o step x hstep] at this
      exact ⟨d, this⟩
    have hln : l ∈ limitNames step := (mem_limitNames step hdst l).mpr ⟨List.isPrefixOf_iff_prefix.mpr hil.1, hil2⟩
    have hcond : getP step [l, kStepLimit] = some (.str ['1']) ∧ getP step [l, kLeft] = some (.str var) := by
      rw [← getP_sub o step x hstep, ← getP_sub o step x hstep]; exact hst
    have e : stepLimitSets label var sign value o x = (limitNames step).flatMap (limitSets var sign value x step) := by
      unfold stepLimitSets; rw [if_pos hxl, hstep]
    have e2 : limitSets var sign value x step l =
        [([kSchedule, x, l, kSign], sign), ([kSchedule, x, l, kRight], value)] := by
      unfold limitSets; rw [if_pos hcond]
    constructor
    · exact List.mem_flatMap.mpr ⟨x, hxk, by rw [e]; exact List.mem_flatMap.mpr ⟨l, hln, by rw [e2]; simp⟩⟩
    · exact List.mem_flatMap.mpr ⟨x, hxk, by rw [e]; exact List.mem_flatMap.mpr ⟨l, hln, by rw [e2]; simp⟩⟩
  have hconv : ∀ t ∈ s.keys.flatMap (stepLimitSets label var sign value o), ∃ x l,
      x ∈ labelled o label ∧ IsLimit o x l ∧ Stops o var x l ∧
      (t = ([kSchedule, x, l, kSign], sign) ∨ t = ([kSchedule, x, l, kRight], value)) := by
    intro t ht
    obtain ⟨x, hx, hx'⟩ := List.mem_flatMap.mp ht
    unfold stepLimitSets at hx'
    split at hx'
    · rename_i hl
      split at hx'
      · rename_i step hstep
        obtain ⟨l, hl1, hl2⟩ := List.mem_flatMap.mp hx'
        obtain ⟨st2, hst2, hdst, _⟩ := hcomp x hx hl
        rw [hstep] at hst2; cases hst2
        obtain ⟨hp, d, hf⟩ := (mem_limitNames step hdst l).mp hl1
        unfold limitSets at hl2
        split at hl2
        · rename_i hcnd
          refine ⟨x, l, (hmem x).mpr ⟨hx, hl⟩, ⟨List.isPrefixOf_iff_prefix.mp hp, d, ?_⟩, ?_, ?_⟩
          · exact (getP_sub o step x hstep l []).trans hf
          · exact ⟨(getP_sub o step x hstep l [kStepLimit]).trans hcnd.1, (getP_sub o step x hstep l [kLeft]).trans hcnd.2⟩
          · simpa using hl2
        · cases hl2
      · cases hx'
    · cases hx'
  have hpair : (s.keys.flatMap (stepLimitSets label var sign value o)).Pairwise (fun a b => Apart a.1 b.1) := by
    rw [List.pairwise_flatMap]
    constructor
    · intro x hx
      unfold stepLimitSets
      split
      · rename_i hl
        split
        · rename_i step hstep
          obtain ⟨st2, hst2, hdst, _⟩ := hcomp x hx hl
          rw [hstep] at hst2; cases hst2
          rw [List.pairwise_flatMap]
          constructor
          · intro l _
            unfold limitSets
            split
            · simp only [List.pairwise_cons, List.mem_singleton, forall_eq, List.not_mem_nil, false_implies, implies_true,
                List.Pairwise.nil, and_true]
              exact apart_limit x l l _ _ (Or.inr (by decide))
            · exact List.Pairwise.nil
          · exact (nodup_limitNames step hdst).imp (fun {a b} hab t ht t' ht' => by
              obtain ⟨k, e⟩ := limitSets_path _ _ _ _ _ _ _ ht
              obtain ⟨k', e'⟩ := limitSets_path _ _ _ _ _ _ _ ht'
              rw [e, e']
              exact apart_limit x a b k k' (Or.inl hab))
        · exact List.Pairwise.nil
      · exact List.Pairwise.nil
    · exact hn.imp (fun {a b} hab t ht t' ht' => by
        obtain ⟨l, k, e⟩ := stepLimitSets_path _ _ _ _ _ _ _ ht
        obtain ⟨l', k', e'⟩ := stepLimitSets_path _ _ _ _ _ _ _ ht'
        rw [e, e']
        exact apart_step a b _ _ hab)
  obtain ⟨o', hr, h1, h2⟩ := runSets_spec o (s.keys.flatMap (stepLimitSets label var sign value o))
    (fun t ht => by
      obtain ⟨x, l, _, _, _, e | e⟩ := hconv t ht
      · rw [e]; simp
      · rw [e]; simp)
    (fun t ht => by
      obtain ⟨x, l, _, hil, hst, e | e⟩ := hconv t ht
      · rw [e]; exact open_of_get o [kSchedule, x, l] kLeft kSign _ hst.2
      · rw [e]; exact open_of_get o [kSchedule, x, l] kLeft kRight _ hst.2) hpair
  refine ⟨o', ?_, ?_, ?_⟩
  · unfold setLabelledLimits
    rw [hk]
    simp only [bind, Except.bind]
    rw [setLimitSteps_eq label var sign value o s.keys hn hcomp, hr]
  · intro x hx l hil hst
    obtain ⟨t1, t2⟩ := htarget x l hx hil hst
    exact ⟨h1 _ t1, h1 _ t2⟩
  · intro q hq
    apply h2
    intro t ht
    obtain ⟨x, l, hx, hil, hst, e | e⟩ := hconv t ht
    · rw [e]; exact (hq x hx l hil hst).1
    · rw [e]; exact (hq x hx l hil hst).2

/-- a schedule to which the theorems apply: two steps with the label, with and without the limit -/
def sample : Obj :=
  .node kSchedule
    (.leaf "m_uStepNum".toList "2".toList
      (.node "Step0".toList (.leaf kLabel "CC1".toList
        (.node "Limit0".toList (.leaf kStepLimit ['1'] (.leaf kLeft "V".toList (.leaf kSign ['>'] (.leaf kRight ['4'] .nil))))
        (.node "Limit1".toList (.leaf kStepLimit ['1'] (.leaf kLeft "T".toList .nil)) .nil)))
      (.node "Step1".toList (.leaf kLabel "CC1".toList .nil) .nil))) .nil

example : labelled sample "CC1".toList = ["Step0".toList, "Step1".toList] ∧
    IsLimit sample "Step0".toList "Limit0".toList ∧ Stops sample "V".toList "Step0".toList "Limit0".toList ∧
    ¬ Stops sample "V".toList "Step0".toList "Limit1".toList ∧
    ((setLabelledLimits sample "CC1".toList "V".toList (.str ['<']) (.str ['3'])).toOption.map
      (fun o => getP o [kSchedule, "Step0".toList, "Limit0".toList, kRight])) = some (some (.str ['3'])) ∧
    labelled sample "CC2".toList = [] := by
  refine ⟨by decide +kernel, ⟨by decide, _, rfl⟩, ⟨rfl, rfl⟩, ?_, by decide +kernel, by decide +kernel⟩
  rintro ⟨_, h⟩
  exact absurd h (by decide +kernel)

end Beep.Props.Schedule
