import Verif.Proof.Base
import Verif.Proof.Py
import Verif.Spec.CycleRules
/-
C21: Biologic cycle numbers.  C22: rule files round trip.
-/
namespace Beep.Props.CycleRules
open Beep Beep.CycleRules Beep.Spec.CycleRules

theorem get?_eq_find {κ ν : Type} [DecidableEq κ] (d : Dict κ ν) (k : κ) :
    d.get? k = (d.find? (fun p => decide (p.1 = k))).map Prod.snd := by
  induction d with
  | nil => rfl
  | cons p d ih =>
    obtain ⟨k', v⟩ := p
    by_cases h : k' = k <;> simp [Dict.get?, List.find?_cons, h, ih]

theorem advance_eq (r : Rules) (a b : Int × Int) :
    advance r a b = if b.2 ≠ a.2 then r.onTechLoop else if b.1 ≠ a.1 then r.seqAdvance a.1 b.1 else 0 := by
  unfold advance Rules.seqAdvance
  rw [get?_eq_find]
  by_cases h : a.2 = b.2
  · by_cases h' : a.1 = b.1
    · simp [h, h']
    · rw [if_neg (not_not.mpr h), if_neg (not_not.mpr h.symm), if_pos h', if_pos (Ne.symm h')]
      cases List.find? (fun p => decide (p.1 = (a.1, b.1))) r.seqTransitions <;> rfl
  · rw [if_pos h, if_pos (Ne.symm h)]

theorem length_numberRows (r : Rules) (pl ps c : Int) (rows : List (Int × Int)) :
    (numberRows r pl ps c rows).1.length = rows.length := by
  induction rows generalizing pl ps c with
  | nil => rfl
  | cons p rows ih => simp [numberRows, ih]

theorem numberRows_first (r : Rules) (p : Int × Int) (c : Int) (rows : List (Int × Int)) :
    (numberRows r p.2 p.1 c (p :: rows)).1[0]? = some c := by
  simp [numberRows]

theorem numberRows_head (r : Rules) (q : Int × Int) (c : Int) (p : Int × Int) (rows : List (Int × Int)) :
    (numberRows r q.2 q.1 c (p :: rows)).1[0]? = some (c + advance r q p) := by
  rw [advance_eq]
  simp only [numberRows, List.getElem?_cons_zero]
  split
  · rfl
  · split
    · rfl
    · simp

theorem numberRows_succ (r : Rules) (q : Int × Int) (c : Int) (rows : List (Int × Int)) (i : Nat)
    (a b : Int × Int) (ha : rows[i]? = some a) (hb : rows[i + 1]? = some b) (x y : Int)
    (hx : (numberRows r q.2 q.1 c rows).1[i]? = some x)
    (hy : (numberRows r q.2 q.1 c rows).1[i + 1]? = some y) : y = x + advance r a b := by
  induction rows generalizing q c i with
  | nil => simp at ha
  | cons p rows ih =>
    cases i with
    | zero =>
      rw [numberRows_head] at hx
      rw [List.getElem?_cons_zero] at ha
      cases ha
      cases hx
      cases rows with
      | nil => simp at hb
      | cons p' rows =>
        rw [List.getElem?_cons_succ, List.getElem?_cons_zero] at hb
        cases hb
        rw [numberRows] at hy
        simp only [List.getElem?_cons_succ] at hy
        have h1 := numberRows_head r q c a (b :: rows)
        simp only [numberRows, List.getElem?_cons_zero, Option.some.injEq] at h1
        rw [h1] at hy
        have h2 := numberRows_head r a (c + advance r q a) b rows
        rw [h2] at hy
        cases hy
        rfl
    | succ i =>
      rw [List.getElem?_cons_succ] at ha hb
      rw [numberRows] at hx hy
      simp only [List.getElem?_cons_succ] at hx hy
      exact ih p _ i ha hb hx hy

theorem pairRows_ok (ns ls : List Int) (rows : List (Int × Int)) (h : pairRows ns ls = .ok rows) :
    rows = ns.zip ls ∧ ns.length ≤ ls.length := by
  induction ns generalizing ls rows with
  | nil => cases h; simp
  | cons n ns ih =>
    cases ls with
    | nil => cases h
    | cons l ls =>
      rw [pairRows] at h
      cases hr : pairRows ns ls with
      | error e => rw [hr] at h; cases h
      | ok r =>
        rw [hr] at h
        cases h
        obtain ⟨h1, h2⟩ := ih ls r hr
        exact ⟨by rw [h1]; rfl, by simpa using h2⟩

theorem pairRows_zip (ns ls : List Int) (h : ns.length ≤ ls.length) :
    pairRows ns ls = .ok (ns.zip ls) := by
  induction ns generalizing ls with
  | nil => rfl
  | cons n ns ih =>
    cases ls with
    | nil => simp at h
    | cons l ls => rw [pairRows, ih ls (by simpa using h)]; rfl

/-- without a loop column the numbers are those of a constant loop column -/
theorem numberRowsNoLoop_eq (r : Rules) (l ps c : Int) (ns : List Int) :
    numberRowsNoLoop r ps c ns = (numberRows r l ps c (ns.map (fun n => (n, l)))).1 := by
  induction ns generalizing ps c with
  | nil => rfl
  | cons n ns ih => simp [numberRowsNoLoop, numberRows, ih]

/-- The records as (sequence, loop counter) pairs; without a loop column the counter is
constant. -/
def records (ns : List Int) (loops : Option (List Int)) : List (Int × Int) :=
  match loops with
  | some (l :: ls) => ns.zip (l :: ls)
  | _ => ns.map (fun n => (n, 0))

theorem getCycleIndex_ok (r : Rules) (ns : List Int) (loops : Option (List Int)) (out : List Int)
    (h : getCycleIndex r ns loops = .ok out) :
    ∃ p rows, records ns loops = p :: rows ∧ out = (numberRows r p.2 p.1 (1 + r.onStart) (p :: rows)).1 ∧
      (records ns loops).length = ns.length := by
  cases ns with
  | nil => cases h
  | cons n0 ns =>
    unfold getCycleIndex at h
    simp only at h
    match loops, h with
    | none, h =>
      cases h
      refine ⟨(n0, 0), ns.map (fun n => (n, 0)), rfl, ?_, by simp [records]⟩
      rw [numberRowsNoLoop_eq r 0]; rfl
    | some [], h =>
      cases h
      refine ⟨(n0, 0), ns.map (fun n => (n, 0)), rfl, ?_, by simp [records]⟩
      rw [numberRowsNoLoop_eq r 0]; rfl
    | some (l0 :: ls), h =>
      cases hr : pairRows (n0 :: ns) (l0 :: ls) with
      | error e => simp only [hr] at h; cases h
      | ok rows =>
        simp only [hr] at h
        cases h
        obtain ⟨h1, h2⟩ := pairRows_ok _ _ _ hr
        refine ⟨(n0, l0), ns.zip ls, rfl, by rw [h1]; rfl, ?_⟩
        simp only [records, List.length_zip]
        omega

/-- C21, when it succeeds: exactly when there is a record and the loop column, if any, has
an entry for every record. -/
theorem C21_defined (r : Rules) (ns : List Int) (loops : Option (List Int)) :
    (∃ out, getCycleIndex r ns loops = .ok out) ↔
      ns ≠ [] ∧ ∀ ls, loops = some ls → ls ≠ [] → ns.length ≤ ls.length := by
  constructor
  · rintro ⟨out, h⟩
    constructor
    · rintro rfl; cases h
    · rintro ls rfl hne
      cases ls with
      | nil => exact absurd rfl hne
      | cons l ls =>
        cases ns with
        | nil => cases h
        | cons n ns =>
          unfold getCycleIndex at h
          cases hr : pairRows (n :: ns) (l :: ls) with
          | error e => simp only [hr] at h; cases h
          | ok rows => exact (pairRows_ok _ _ _ hr).2
  · rintro ⟨hne, hl⟩
    cases ns with
    | nil => exact absurd rfl hne
    | cons n ns =>
      unfold getCycleIndex
      match loops, hl with
      | none, _ => exact ⟨_, rfl⟩
      | some [], _ => exact ⟨_, rfl⟩
      | some (l :: ls), hl =>
        simp only [pairRows_zip _ _ (hl _ rfl (by simp))]
        exact ⟨_, rfl⟩

/-- C21: one number per record; the first is 1 plus the start advance. -/
theorem C21_first (r : Rules) (ns : List Int) (loops : Option (List Int)) (out : List Int)
    (h : getCycleIndex r ns loops = .ok out) :
    out.length = ns.length ∧ out[0]? = some (1 + r.onStart) := by
  obtain ⟨p, rows, h1, h2, h3⟩ := getCycleIndex_ok r ns loops out h
  subst h2
  rw [length_numberRows]
  exact ⟨by rw [← h1]; exact h3, numberRows_first r p _ rows⟩

/-- C21: consecutive records differ by the advance the rules give for them. -/
theorem C21_step (r : Rules) (ns : List Int) (loops : Option (List Int)) (out : List Int)
    (h : getCycleIndex r ns loops = .ok out) (i : Nat) (a b : Int × Int)
    (ha : (records ns loops)[i]? = some a) (hb : (records ns loops)[i + 1]? = some b) :
    ∃ x y, out[i]? = some x ∧ out[i + 1]? = some y ∧ y = x + advance r a b := by
  obtain ⟨p, rows, h1, h2, h3⟩ := getCycleIndex_ok r ns loops out h
  have hlen : out.length = (records ns loops).length := by rw [h2, length_numberRows, h1]
  have hi := (List.getElem?_eq_some_iff.mp hb).1
  refine ⟨out[i], out[i + 1], List.getElem?_eq_getElem (by omega), List.getElem?_eq_getElem (by omega), ?_⟩
  rw [h1] at ha hb
  refine numberRows_succ r p (1 + r.onStart) (p :: rows) i a b ha hb _ _ ?_ ?_ <;> rw [← h2]
  · exact List.getElem?_eq_getElem (by omega)
  · exact List.getElem?_eq_getElem (by omega)

/-- C21: with nonnegative advances the cycle number never decreases. -/
theorem C21_monotone (r : Rules) (ns : List Int) (loops : Option (List Int)) (out : List Int)
    (h : getCycleIndex r ns loops = .ok out) (hl : 0 ≤ r.onTechLoop)
    (ht : ∀ p ∈ r.seqTransitions, 0 ≤ p.2) (i j : Nat) (x y : Int) (hij : i ≤ j)
    (hx : out[i]? = some x) (hy : out[j]? = some y) : x ≤ y := by
  induction j generalizing y with
  | zero =>
    have : i = 0 := by omega
    subst this; rw [hx] at hy; cases hy; exact le_refl _
  | succ j ih =>
    by_cases hc : i = j + 1
    · subst hc; rw [hx] at hy; cases hy; exact le_refl _
    · obtain ⟨p, rows, h1, h2, h3⟩ := getCycleIndex_ok r ns loops out h
      have hlen : out.length = (records ns loops).length := by rw [h2, length_numberRows, h1]
      have hj := (List.getElem?_eq_some_iff.mp hy).1
      obtain ⟨x', y', e1, e2, e3⟩ := C21_step r ns loops out h j _ _
        (List.getElem?_eq_getElem (by omega)) (List.getElem?_eq_getElem (by omega))
      rw [hy] at e2
      cases e2
      have := ih x' (by omega) e1
      have hadv : ∀ a b, 0 ≤ advance r a b := by
        intro a b
        unfold advance
        split
        · exact hl
        · split
          · split
            · rename_i q hq
              exact ht q (List.mem_of_find?_eq_some hq)
            · exact le_refl _
          · exact le_refl _
      have := hadv (records ns loops)[j] (records ns loops)[j + 1]
      omega

/-- rules of a technique: two advances when leaving sequence 3 for 1, one on a loop -/
def exRules : Rules :=
  { techNum := 1, doesLoop := true, onStart := 1, onTechLoop := 1,
    seqTransitions := [((1, 2), 0), ((3, 1), 2)], stepTransitions := [] }

example : getCycleIndex exRules [1, 1, 2, 3, 1, 3, 1] (some [0, 0, 0, 0, 0, 0, 1]) =
    .ok [2, 2, 2, 2, 4, 4, 5] := by decide +kernel

example : (getCycleIndex exRules [1, 1, 2, 3, 1, 3, 1] none) = .ok [2, 2, 2, 2, 4, 4, 6] := by
  decide +kernel

/-- C21 for several technique files: the second file starts from the cycle reached at the
end of the first. -/
theorem C21_files (c : Int) (r : Rules) (p : Int × Int) (rows : List (Int × Int))
    (files : List (Rules × List (Int × Int))) (out : List (List Int))
    (h : addCycleNums c ((r, p :: rows) :: files) = .ok out) :
    ∃ ns rest, out = ns :: rest ∧ ns.length = rows.length + 1 ∧ ns[0]? = some (c + r.onStart) ∧
      (∀ (i : Nat) a b x y, (p :: rows)[i]? = some a → (p :: rows)[i + 1]? = some b → ns[i]? = some x →
        ns[i + 1]? = some y → y = x + advance r a b) ∧
      ∃ l, ns.getLast? = some l ∧ addCycleNums l files = .ok rest := by
  have hlast : ∀ (rows : List (Int × Int)) (pl ps c : Int), rows ≠ [] →
      (numberRows r pl ps c rows).1.getLast? = some (numberRows r pl ps c rows).2 := by
    intro rows
    induction rows with
    | nil => intro _ _ _ h; exact absurd rfl h
    | cons q rows ih =>
      intro pl ps c _
      cases rows with
      | nil => simp [numberRows]
      | cons q' rows =>
        rw [numberRows]
        have := ih q.2 q.1 (if q.2 ≠ pl then c + r.onTechLoop else
          if q.1 ≠ ps then c + r.seqAdvance ps q.1 else c) (by simp)
        cases hn : (numberRows r q.2 q.1 (if q.2 ≠ pl then c + r.onTechLoop else
          if q.1 ≠ ps then c + r.seqAdvance ps q.1 else c) (q' :: rows)).1 with
        | nil => rw [hn] at this; cases this
        | cons z zs =>
          rw [hn] at this
          simp only [hn, List.getLast?_cons_cons]
          exact this
  rw [addCycleNums] at h
  cases hr : addCycleNums (numberRows r p.2 p.1 (c + r.onStart) (p :: rows)).2 files with
  | error e => rw [hr] at h; cases h
  | ok rest =>
    rw [hr] at h
    cases h
    refine ⟨_, rest, rfl, by rw [length_numberRows]; rfl, numberRows_first r p _ rows, ?_, _,
      hlast _ _ _ _ (by simp), hr⟩
    intro i a b x y ha hb hx hy
    exact numberRows_succ r p _ (p :: rows) i a b ha hb x y hx hy

example : addCycleNums 1 [(exRules, [(1, 0), (3, 0), (1, 0)]), (exRules, [(1, 0), (1, 1)])] =
    .ok [[2, 2, 4], [5, 6]] := by decide +kernel

/-! ### C22 -/

theorem parse_written (d : Dict (Int × Int) Int) (acc : Dict (Scalar × Scalar) J) (hd : d.WF)
    (hacc : ∀ p ∈ d, (Scalar.num p.1.1, Scalar.num p.1.2) ∉ acc.keys) :
    parseTransitions (d.map (fun p => .obj [("source", .num p.1.1), ("target", .num p.1.2),
      ("adv_cycle_count", .num p.2)])) acc =
    .ok (acc ++ d.map (fun p => ((.num p.1.1, .num p.1.2), .num p.2))) := by
  induction d generalizing acc with
  | nil => simp [parseTransitions]
  | cons p d ih =>
    have hset : ∀ (acc : Dict (Scalar × Scalar) J) k v, k ∉ acc.keys → acc.set k v = acc ++ [(k, v)] := by
      intro acc k v
      induction acc with
      | nil => intro _; rfl
      | cons q acc ih =>
        obtain ⟨k', v'⟩ := q
        intro h
        simp only [Dict.keys, List.map_cons, List.mem_cons, not_or] at h
        rw [Dict.set, if_neg (Ne.symm h.1), ih h.2]; rfl
    have hwf := hd
    unfold Dict.WF Dict.keys at hwf
    rw [List.map_cons, List.nodup_cons] at hwf
    have hp := hacc p (List.mem_cons_self ..)
    simp only [List.map_cons, parseTransitions]
    show parseTransitions _ (acc.set (Scalar.num p.1.1, Scalar.num p.1.2) (J.num p.2)) = _
    rw [hset acc _ _ hp, ih _ hwf.2]
    · simp
    · intro q hq
      unfold Dict.keys
      rw [List.map_append, List.mem_append, not_or]
      refine ⟨hacc q (List.mem_cons_of_mem _ hq), ?_⟩
      simp only [List.map_cons, List.map_nil, List.mem_singleton, Prod.mk.injEq, Scalar.num.injEq]
      rintro ⟨h1, h2⟩
      apply hwf.1
      rw [show p.1 = q.1 from Prod.ext h1.symm h2.symm]
      exact List.mem_map_of_mem hq

/-- C22: reading back a written rule set gives the same rules, for every rule set. -/
theorem C22_roundtrip (r : Rules) (h1 : r.seqTransitions.WF) (h2 : r.stepTransitions.WF) :
    ∃ raw, parse (write r) = .ok raw ∧ Same raw r := by
  have e1 := parse_written r.seqTransitions [] h1 (by simp [Dict.keys])
  have e2 := parse_written r.stepTransitions [] h2 (by simp [Dict.keys])
  refine ⟨⟨.num r.techNum, .bool r.doesLoop, .num r.onStart, .num r.onTechLoop, _, _⟩, ?_,
    rfl, rfl, rfl, rfl, rfl, rfl⟩
  unfold parse
  show (do
    let st ← parseTransitions _ []
    let dt ← parseTransitions _ []
    pure ({ techNum := .num r.techNum, doesLoop := .bool r.doesLoop, onStart := .num r.onStart,
            onTechLoop := .num r.onTechLoop, seqTransitions := st, stepTransitions := dt } : RawRules)) = _
  rw [e1, e2]
  rfl

example : exRules.seqTransitions.WF ∧ exRules.stepTransitions.WF := by decide

/-- the six keys every rule file must have -/
def requiredKeys : List String :=
  ["tech_num", "tech_does_loop", "adv_cycle_on_start", "adv_cycle_on_tech_loop",
   "adv_cycle_seq_transitions", "debug_adv_cycle_on_step_transitions"]

theorem item_error_of_missing (k : String) (d : List (String × J)) (h : assoc k d = none) :
    (J.obj d).item k = .error .keyError := by
  simp only [J.item, h]

/-- C22 (partial: missing fields; wrong value types and repeated transitions are not
detected, see the next theorems): a rule file without one of the fields is rejected. -/
theorem C22_missing_field_partial (d : List (String × J)) (k : String) (hk : k ∈ requiredKeys)
    (hm : assoc k d = none) : ∃ e, parse (.obj d) = .error e := by
  cases hp : parse (.obj d) with
  | error e => exact ⟨e, rfl⟩
  | ok raw =>
    exfalso
    have key : ∀ k', k' ∈ requiredKeys → ∃ v, (J.obj d).item k' = .ok v := by
      intro k' hk'
      unfold parse at hp
      cases h1 : (J.obj d).item "tech_num" with
      | error e => rw [h1] at hp; cases hp
      | ok v1 =>
      cases h2 : (J.obj d).item "tech_does_loop" with
      | error e => rw [h1, h2] at hp; cases hp
      | ok v2 =>
      cases h3 : (J.obj d).item "adv_cycle_on_start" with
      | error e => rw [h1, h2, h3] at hp; cases hp
      | ok v3 =>
      cases h4 : (J.obj d).item "adv_cycle_on_tech_loop" with
      | error e => rw [h1, h2, h3, h4] at hp; cases hp
      | ok v4 =>
      cases h5 : (J.obj d).item "adv_cycle_seq_transitions" with
      | error e => rw [h1, h2, h3, h4, h5] at hp; cases hp
      | ok v5 =>
      cases h6 : (J.obj d).item "debug_adv_cycle_on_step_transitions" with
      | error e =>
        rw [h1, h2, h3, h4, h5] at hp
        cases hi : v5.iter with
        | error e => simp only [Bind.bind, Except.bind, hi] at hp; cases hp
        | ok l =>
          simp only [Bind.bind, Except.bind, hi] at hp
          cases ht : parseTransitions l [] with
          | error e => rw [ht] at hp; cases hp
          | ok t => rw [ht, h6] at hp; cases hp
      | ok v6 =>
        simp only [requiredKeys, List.mem_cons, List.not_mem_nil, or_false] at hk'
        rcases hk' with rfl | rfl | rfl | rfl | rfl | rfl
        · exact ⟨_, h1⟩
        · exact ⟨_, h2⟩
        · exact ⟨_, h3⟩
        · exact ⟨_, h4⟩
        · exact ⟨_, h5⟩
        · exact ⟨_, h6⟩
    obtain ⟨v, hv⟩ := key k hk
    rw [item_error_of_missing k d hm] at hv
    cases hv

/-- a transition entry without one of its three fields is rejected -/
theorem C22_bad_entry_partial (pre post : List J) (bad : J) (acc : Dict (Scalar × Scalar) J)
    (k : String) (hk : k ∈ ["source", "target", "adv_cycle_count"])
    (hbad : ∃ e, bad.item k = .error e) : ∃ e, parseTransitions (pre ++ bad :: post) acc = .error e := by
  induction pre generalizing acc with
  | nil =>
    rw [List.nil_append, parseTransitions]
    obtain ⟨e, he⟩ := hbad
    cases h1 : bad.item "source" with
    | error e => exact ⟨e, rfl⟩
    | ok v1 =>
      cases h2 : bad.item "target" with
      | error e => exact ⟨e, rfl⟩
      | ok v2 =>
        cases h3 : bad.item "adv_cycle_count" with
        | error e => exact ⟨e, rfl⟩
        | ok v3 =>
          exfalso
          simp only [List.mem_cons, List.not_mem_nil, or_false] at hk
          rcases hk with rfl | rfl | rfl
          · rw [h1] at he; cases he
          · rw [h2] at he; cases he
          · rw [h3] at he; cases he
  | cons d pre ih =>
    rw [List.cons_append, parseTransitions]
    cases h1 : d.item "source" with
    | error e => exact ⟨e, rfl⟩
    | ok v1 =>
      cases h2 : d.item "target" with
      | error e => exact ⟨e, rfl⟩
      | ok v2 =>
        cases h3 : d.item "adv_cycle_count" with
        | error e => exact ⟨e, rfl⟩
        | ok v3 =>
          cases h4 : v1.scalar with
          | error e => exact ⟨e, by simp [Bind.bind, Except.bind, h4]⟩
          | ok s =>
            cases h5 : v2.scalar with
            | error e => exact ⟨e, by simp [Bind.bind, Except.bind, h4, h5]⟩
            | ok t =>
              obtain ⟨e, he⟩ := ih (acc.set (s, t) v3)
              exact ⟨e, by simpa [Bind.bind, Except.bind, h4, h5] using he⟩

example : (J.obj [("source", .num 1)]).item "target" = .error .keyError := rfl

/-- C22 fails for files that list a transition twice: the earlier entry is silently
dropped. -/
theorem C22_duplicate_violated :
    (parseTransitions [.obj [("source", .num 1), ("target", .num 2), ("adv_cycle_count", .num 1)],
      .obj [("source", .num 1), ("target", .num 2), ("adv_cycle_count", .num 5)]] []).map
      (fun d => d.map (fun p => (p.1, match p.2 with | .num n => n | _ => 0))) =
    .ok [((.num 1, .num 2), 5)] := by decide +kernel

/-- C22 fails for files with values of the wrong type: a count that is a string is
accepted. -/
theorem C22_type_violated :
    ∃ raw, parse (.obj [("tech_num", .num 1), ("tech_does_loop", .bool false),
      ("adv_cycle_on_start", .str "one"), ("adv_cycle_on_tech_loop", .num 0),
      ("adv_cycle_seq_transitions", .arr []), ("debug_adv_cycle_on_step_transitions", .arr [])]) = .ok raw ∧
      raw.onStart = .str "one" := ⟨_, rfl, rfl⟩

end Beep.Props.CycleRules
