import Verif.Proof.Base
import Verif.Spec.MaccorToArbin
/-
C32, C33, C64, C65: conversion of a Maccor procedure to an Arbin schedule.
-/
namespace Beep.Props.MaccorToArbin
open Beep Beep.MtA Beep.Spec.MtA

/-! ### C32: limits -/

theorem label_ne (i : Nat) (s : Step) : label i s ≠ "Next Step" := by
  intro h
  have h1 : (label i s).toList = "Next Step".toList := by rw [h]
  unfold label at h1
  rw [String.toList_append, String.toList_append] at h1
  have hd : ∀ c ∈ (toString (i + 1)).toList, c.isDigit = true := by
    intro c hc
    exact Nat.isDigit_of_mem_toDigits (b := 10) (by decide) (by decide) (by simpa [toString, Nat.repr] using hc)
  have hne : (toString (i + 1)).toList ≠ [] := by
    simp [toString, Nat.repr, Nat.toDigits_ne_nil]
  cases hl : (toString (i + 1)).toList with
  | nil => exact hne hl
  | cons c cs =>
    rw [hl] at h1 hd
    have hc := hd c (List.mem_cons_self ..)
    have : c = 'N' := by
      have := congrArg List.head? h1
      simpa using this
    rw [this] at hc
    exact absurd hc (by decide)

theorem goto_spec (steps : List Step) (i : Nat) (e : End) (g : String)
    (h : (if e.step = i + 2 then Except.ok "Next Step" else if e.step = 0 then
      nameOf steps (steps.length - 1) else nameOf steps (e.step - 1)) = Except.ok g) :
    (g = "Next Step" ↔ e.step = i + 2) ∧
    (e.step ≠ i + 2 → e.step ≠ 0 → ∃ s, steps[e.step - 1]? = some s ∧ g = label (e.step - 1) s) := by
  have hname : ∀ k g, nameOf steps k = .ok g → ∃ s, steps[k]? = some s ∧ g = label k s := by
    intro k g hg
    unfold nameOf at hg
    split at hg
    · cases hg
    · rename_i s hs; cases hg; exact ⟨s, hs, rfl⟩
  by_cases h1 : e.step = i + 2
  · rw [if_pos h1] at h
    cases h
    exact ⟨⟨fun _ => h1, fun _ => rfl⟩, fun hh => absurd h1 hh⟩
  · rw [if_neg h1] at h
    by_cases h2 : e.step = 0
    · rw [if_pos h2] at h
      obtain ⟨s, _, hg⟩ := hname _ _ h
      exact ⟨⟨fun hh => absurd (hg.symm.trans hh) (label_ne _ _), fun hh => absurd hh h1⟩, fun _ hh => absurd h2 hh⟩
    · rw [if_neg h2] at h
      obtain ⟨s, hs, hg⟩ := hname _ _ h
      exact ⟨⟨fun hh => absurd (hg.symm.trans hh) (label_ne _ _), fun hh => absurd hh h1⟩, fun _ _ => ⟨s, hs, hg⟩⟩

theorem num?_ok (v : EVal) (x : Rat) (h : v.num? = .ok x) : v = .num x := by
  cases v with
  | num y => cases h; rfl
  | time t => cases h

theorem time?_ok (v : EVal) (x : Rat) (h : v.time? = .ok x) : ∃ t, v = .time t ∧ elapsed t = .ok x := by
  cases v with
  | num y => cases h
  | time t => exact ⟨t, rfl, h⟩

theorem flip_lt : flip "<=" = ">=" ∧ flip "<" = ">" ∧ flip "=" = "=" ∧ flip ">=" = ">=" ∧ flip ">" = ">" := by
  decide

theorem currentLimit_spec (e : End) (t : SType) (g left : String) (l : Limit)
    (h : currentLimit e t g left = .ok l) :
    ∃ v, e.value = .num v ∧ l.goto = g ∧ l.left = left ∧ l.stepLimit = true ∧
      ((t = .charge ∧ l.sign = strip e.oper ∧ l.right = v) ∨
       (t = .dischrge ∧ l.sign = flip (strip e.oper) ∧ l.right = -v)) := by
  unfold currentLimit at h
  simp only [bind, Except.bind] at h
  split at h
  · cases h
  rename_i v hv
  have := num?_ok _ _ hv
  split at h
  · cases h; exact ⟨v, this, rfl, rfl, rfl, Or.inl ⟨rfl, rfl, rfl⟩⟩
  · cases h; exact ⟨v, this, rfl, rfl, rfl, Or.inr ⟨rfl, rfl, rfl⟩⟩
  · cases h

/-- C32: a converted end entry compares the same quantity with the same threshold, and goes to
the next step exactly when the entry does.  Missing: upper limits of the current in a discharge
step. -/
theorem C32_end_partial (steps : List Step) (flow : List (Nat × Nat)) (ct : String) (i : Nat) (t : SType) (e : End)
    (l : Limit) (h : convertEnd steps flow ct i t e = .ok l) :
    l.stepLimit = true ∧
    (e.endType ≠ "Loop Addendum" → (l.goto = "Next Step" ↔ e.step = i + 2) ∧
      (e.step ≠ i + 2 → e.step ≠ 0 → ∃ s, steps[e.step - 1]? = some s ∧ l.goto = label (e.step - 1) s)) ∧
    (e.endType = "Voltage" → l.left = "PV_CHAN_Voltage" ∧ ∃ v, e.value = .num v ∧
      ∀ x, sat l.sign x l.right ↔ sat (strip e.oper) x v) ∧
    (e.endType = "Current" → (l.left = "PV_CHAN_CV_Stage_Current" ∨ l.left = "PV_CHAN_Current") ∧
      ∃ v, e.value = .num v ∧ (t = .charge ∨ t = .dischrge) ∧
        ((t = .dischrge → strip e.oper ∈ ["<=", "<", "="]) →
          ∀ x, sat l.sign (signed t x) l.right ↔ sat (strip e.oper) x v)) ∧
    (e.endType = "StepTime" → l.left = "PV_CHAN_Step_Time" ∧ l.sign = ">" ∧
      ∃ tt, e.value = .time tt ∧ elapsed tt = .ok l.right) ∧
    (e.endType = "Loop Cnt" → ∃ n v, counterOf t = .ok n ∧ e.value = .num v ∧ l.left = "TC_Counter" ++ toString n ∧
      ∀ x, sat l.sign x l.right ↔ sat (strip e.oper) x v) := by
  unfold convertEnd at h
  simp only [bind, Except.bind] at h
  split at h
  · cases h
  rename_i g hg
  have hgo := goto_spec steps i e g hg
  have hcur : ∀ left, currentLimit e t g left = .ok l → l.stepLimit = true ∧ l.goto = g ∧ l.left = left ∧
      ∃ v, e.value = .num v ∧ (t = .charge ∨ t = .dischrge) ∧
        ((t = .dischrge → strip e.oper ∈ ["<=", "<", "="]) →
          ∀ x, sat l.sign (signed t x) l.right ↔ sat (strip e.oper) x v) := by
    intro left hl
    obtain ⟨v, h1, h2, h3, h4, h5⟩ := currentLimit_spec e t g left l hl
    refine ⟨h4, h2, h3, v, h1, ?_, ?_⟩
    · rcases h5 with h5 | h5
      · exact Or.inl h5.1
      · exact Or.inr h5.1
    · intro hop x
      rcases h5 with ⟨ht, hs, hr⟩ | ⟨ht, hs, hr⟩
      · rw [hs, hr, ht]; rfl
      · have hop := hop ht
        rw [hs, hr, ht]
        simp only [List.mem_cons, List.not_mem_nil, or_false] at hop
        show sat _ (-x) (-v) ↔ _
        rcases hop with hop | hop | hop <;> rw [hop]
        · rw [flip_lt.1]
          unfold sat
          rw [if_neg (by decide), if_pos rfl, if_pos rfl]
          exact neg_le_neg_iff
        · rw [flip_lt.2.1]
          unfold sat
          rw [if_neg (by decide), if_neg (by decide), if_neg (by decide), if_pos rfl, if_neg (by decide),
            if_neg (by decide), if_pos rfl]
          exact neg_lt_neg_iff
        · rw [flip_lt.2.2.1]
          unfold sat
          rw [if_neg (by decide), if_neg (by decide), if_neg (by decide), if_neg (by decide), if_pos rfl,
            if_neg (by decide), if_neg (by decide), if_neg (by decide), if_neg (by decide), if_pos rfl]
          exact neg_inj
  by_cases h1 : e.endType = "Voltage"
  · rw [if_pos h1] at h
    split at h
    · cases h
    rename_i v hv
    cases h
    rw [h1]
    exact ⟨rfl, fun _ => hgo, fun _ => ⟨rfl, v, num?_ok _ _ hv, fun x => Iff.rfl⟩, fun hh => absurd hh (by decide),
      fun hh => absurd hh (by decide), fun hh => absurd hh (by decide)⟩
  rw [if_neg h1] at h
  by_cases h2 : e.endType = "Current" ∧ ct = "CCCV"
  · rw [if_pos h2] at h
    obtain ⟨a, b, c, d⟩ := hcur _ h
    rw [b, h2.1]
    exact ⟨a, fun _ => hgo, fun hh => absurd hh (by decide), fun _ => ⟨Or.inl c, d⟩,
      fun hh => absurd hh (by decide), fun hh => absurd hh (by decide)⟩
  rw [if_neg h2] at h
  by_cases h3 : e.endType = "Current" ∧ ct = "Voltage(V)"
  · rw [if_pos h3] at h
    obtain ⟨a, b, c, d⟩ := hcur _ h
    rw [b, h3.1]
    exact ⟨a, fun _ => hgo, fun hh => absurd hh (by decide), fun _ => ⟨Or.inr c, d⟩,
      fun hh => absurd hh (by decide), fun hh => absurd hh (by decide)⟩
  rw [if_neg h3] at h
  by_cases h4 : e.endType = "StepTime"
  · rw [if_pos h4] at h
    split at h
    · cases h
    rename_i v hv
    cases h
    rw [h4]
    exact ⟨rfl, fun _ => hgo, fun hh => absurd hh (by decide), fun hh => absurd hh (by decide),
      fun _ => ⟨rfl, rfl, time?_ok _ _ hv⟩, fun hh => absurd hh (by decide)⟩
  rw [if_neg h4] at h
  by_cases h5 : e.endType = "Loop Cnt"
  · rw [if_pos h5] at h
    split at h
    · cases h
    rename_i n hn
    split at h
    · cases h
    rename_i v hv
    cases h
    rw [h5]
    exact ⟨rfl, fun _ => hgo, fun hh => absurd hh (by decide), fun hh => absurd hh (by decide),
      fun hh => absurd hh (by decide), fun _ => ⟨n, v, hn, num?_ok _ _ hv, rfl, fun x => Iff.rfl⟩⟩
  rw [if_neg h5] at h
  by_cases h6 : e.endType = "Loop Addendum"
  · rw [if_pos h6] at h
    split at h
    · cases h
    split at h
    · cases h
    split at h
    · cases h
    split at h
    · cases h
    cases h
    rw [h6]
    exact ⟨rfl, fun hh => absurd rfl hh, fun hh => absurd hh (by decide), fun hh => absurd hh (by decide),
      fun hh => absurd hh (by decide), fun hh => absurd hh (by decide)⟩
  · rw [if_neg h6] at h
    cases h

/-- C32 fails: in a discharge step, the condition "current at least v" becomes "current at most
v". -/
theorem C32_discharge_violated (steps : List Step) (flow : List (Nat × Nat)) (i : Nat) (e : End) (v : Rat)
    (he : e.endType = "Current") (ho : strip e.oper = ">=") (hv : e.value = .num v) (hs : e.step = i + 2) :
    ∃ l, convertEnd steps flow "CCCV" i .dischrge e = .ok l ∧
      ∀ x, sat l.sign (signed .dischrge x) l.right ↔ x ≤ v := by
  refine ⟨{ stepLimit := true, log := true, goto := "Next Step", left := "PV_CHAN_CV_Stage_Current",
            sign := flip (strip e.oper), right := -v }, ?_, ?_⟩
  · unfold convertEnd
    simp only [bind, Except.bind]
    rw [if_pos hs]
    simp only
    rw [if_neg (by rw [he]; decide), if_pos ⟨he, trivial⟩]
    unfold currentLimit
    rw [hv]
    rfl
  · intro x
    simp only [ho, flip_lt.2.2.2.1]
    unfold sat signed
    rw [if_neg (by decide), if_pos rfl]
    exact neg_le_neg_iff

theorem micro_eq (n : Nat) (ds : List (Fin 10)) (h : ds.length ≤ n) : micro n ds = fraction ds := by
  induction n generalizing ds with
  | zero =>
    cases ds with
    | nil => rfl
    | cons d ds => simp at h
  | succ n ih =>
    cases ds with
    | nil => rfl
    | cons d ds =>
      simp only [List.length_cons] at h
      rw [micro, fraction, ih ds (by omega)]
      ring

/-- C32: a time with at most six digits behind the point is converted to exactly its seconds when
it is written with hours, minutes and seconds in their usual ranges, or as one digit of seconds.
Missing: all other texts, which are refused. -/
theorem C32_time_partial (t : TimeText) (hf : t.frac.length ≤ 6)
    (hr : if t.short then t.seconds < 10 else t.hours < 24 ∧ t.minutes < 60 ∧ t.seconds < 60) :
    elapsed t = .ok (seconds t) := by
  unfold elapsed seconds
  rw [micro_eq 6 t.frac hf]
  split
  · rename_i hs
    rw [if_pos hs] at hr
    rw [if_pos hr]
  · rename_i hs
    rw [if_neg hs] at hr
    rw [if_pos hr]

/-- C32 fails: a time of a day or more, or `::ss` with two digits, cannot be converted. -/
theorem C32_time_violated (t : TimeText)
    (h : (t.short = true ∧ 10 ≤ t.seconds) ∨ (t.short = false ∧ 24 ≤ t.hours)) :
    elapsed t = .error .valueError := by
  unfold elapsed
  rcases h with ⟨a, b⟩ | ⟨a, b⟩
  · rw [a, if_pos rfl, if_neg (by omega)]
  · rw [a, if_neg (by decide), if_neg (by omega)]

theorem mapE_length {α β : Type} (f : α → Except Err β) (l : List α) (l' : List β) (h : mapE f l = .ok l') :
    l'.length = l.length := by
  induction l generalizing l' with
  | nil => cases h; rfl
  | cons a as ih =>
    rw [mapE] at h
    simp only [bind, Except.bind] at h
    split at h
    · cases h
    split at h
    · cases h
    rename_i bs hbs
    cases h
    simp [ih bs hbs]

theorem number_fst {α : Type} (k : Nat) (l : List α) : (number k l).map Prod.fst = List.range' k l.length := by
  induction l generalizing k with
  | nil => rfl
  | cons a as ih => rw [number, List.map_cons, ih, List.length_cons, List.range'_succ]

theorem number_snd {α : Type} (k : Nat) (l : List α) : (number k l).map Prod.snd = l := by
  induction l generalizing k with
  | nil => rfl
  | cons a as ih => rw [number, List.map_cons, ih]

/-- C32: the limits of a step are numbered 0, 1, 2, ... and announced correctly, and every end and
report entry has its limit, provided the ends are given as a list or there are no reports.
Missing: a single end entry together with reports. -/
theorem C32_indices_partial (steps : List Step) (flow : List (Nat × Nat)) (ct : String) (i : Nat) (s : Step)
    (ls : List (Nat × Limit)) (n : Nat) (h : limitsOf steps flow ct i s = .ok (ls, n))
    (hs : s.reports = .absent ∨ ∃ l, s.ends = .many l) :
    ls.map Prod.fst = List.range n ∧
    n = (match s.ends with | .absent => 1 | .single _ => 1 | .many l => l.length) +
      (match s.reports with | .absent => 0 | .single _ => 1 | .many l => l.length) := by
  unfold limitsOf at h
  simp only [bind, Except.bind] at h
  split at h
  · cases h
  rename_i ends hends
  have hlen : ends.length = (match s.ends with | .absent => 1 | .single _ => 1 | .many l => l.length) := by
    split at hends
    · cases hends; rename_i he; rw [he]; rfl
    · rename_i e he
      rw [he]
      split at hends
      · cases hends
      · cases hends; rfl
    · rename_i l he
      rw [he]
      exact mapE_length _ _ _ hends
  cases hr : s.reports with
  | absent =>
    rw [hr] at h
    cases h
    refine ⟨by rw [number_fst, List.range_eq_range'], by simpa using hlen⟩
  | single r =>
    rw [hr] at hs h
    rcases hs with hs | ⟨l, hs⟩
    · cases hs
    rw [hs] at h hlen
    simp only at h hlen
    split at h
    · cases h
    cases h
    refine ⟨?_, by simp [hlen, hs]⟩
    rw [List.map_append, number_fst, List.range_eq_range', List.range'_concat]
    simp
  | many rs =>
    rw [hr] at hs h
    rcases hs with hs | ⟨l, hs⟩
    · cases hs
    rw [hs] at h hlen
    simp only at h hlen
    split at h
    · cases h
    rename_i lims hl
    cases h
    have := mapE_length _ _ _ hl
    refine ⟨?_, by simp [hlen, hs, this]⟩
    rw [List.map_append, number_fst, number_fst, List.range_eq_range',
      show List.range' ends.length lims.length = List.range' (0 + 1 * ends.length) lims.length by simp,
      List.range'_append]

/-- C32 fails: with one end entry and one report entry the limits are numbered 0 and 5 but two are
announced; with one end entry and a list of reports all reports are lost. -/
theorem C32_reports_violated (steps : List Step) (flow : List (Nat × Nat)) (ct : String) (i : Nat) (s : Step)
    (e : End) (he : s.ends = .single e) (l : Limit) (hc : convertEnd steps flow ct i s.type e = .ok l) :
    (∀ r lr, s.reports = .single r → convertReport r = .ok lr →
      limitsOf steps flow ct i s = .ok ([(0, l), (5, lr)], 2)) ∧
    (∀ rs, s.reports = .many rs → limitsOf steps flow ct i s = .ok ([(0, l)], 1)) := by
  constructor
  · intro r lr hr hlr
    unfold limitsOf
    rw [he, hr]
    simp only [bind, Except.bind, hc, hlr]
    rfl
  · intro rs hr
    unfold limitsOf
    rw [he, hr]
    simp only [bind, Except.bind, hc]
    rfl

/-! ### C33: loops -/

theorem searchDo_spec (steps : List Step) (n k d : Nat) (h2 : 2 ≤ d) (hd : d ≤ k)
    (ht : (steps[d]?).map Step.type = some (.doo n))
    (hno : ∀ j, d < j → j ≤ k → (steps[j]?).map Step.type ≠ some (.doo n)) :
    searchDo steps n k = some d := by
  induction k using Nat.strong_induction_on with
  | _ k ih =>
    match k, ih, hd, hno with
    | 0, _, hd, _ => omega
    | 1, _, hd, _ => omega
    | k + 2, ih, hd, hno =>
      rw [searchDo]
      by_cases hk : d = k + 2
      · rw [← hk, if_pos ht]
      · rw [if_neg (hno (k + 2) (by omega) (by omega))]
        exact ih (k + 1) (by omega) (by omega) (fun j h1 h2 => hno j h1 (by omega))

/-- open loops know where they were opened, and no other loop with their number was opened since -/
def StackOk (steps : List Step) (stack : List (Nat × Nat)) (i : Nat) : Prop :=
  ∀ p ∈ stack, p.1 < i ∧ (steps[p.1]?).map Step.type = some (.doo p.2) ∧
    ∀ j, p.1 < j → j < i → (steps[j]?).map Step.type ≠ some (.doo p.2)

theorem drop_cons {α : Type} {l : List α} {i : Nat} {a : α} {as : List α} (h : l.drop i = a :: as) :
    l[i]? = some a ∧ l.drop (i + 1) = as := by
  constructor
  · have := congrArg List.head? h
    rwa [List.head?_drop] at this
  · have := congrArg List.tail h
    rwa [List.tail_drop] at this

theorem metadata_spec (steps : List Step) (ss : List Step) (i : Nat) (hss : steps.drop i = ss)
    (stack : List (Nat × Nat)) (hst : StackOk steps stack i) (ps : List (Nat × Nat))
    (hp : pairs stack i ss = some ps) (h2 : ∀ p ∈ ps, 2 ≤ p.2) (di : Option Nat) :
    metadata steps di i ss = .ok (ps.map (fun p => (p.1, p.2 + 1))) := by
  induction ss generalizing i stack ps di with
  | nil =>
    cases stack with
    | nil =>
      unfold pairs at hp
      rw [if_pos rfl] at hp
      cases hp; rfl
    | cons x xs => simp [pairs] at hp
  | cons s ss ih =>
    obtain ⟨hs, hd⟩ := drop_cons hss
    have hkeep : (∀ n, s.type ≠ .doo n) → StackOk steps stack (i + 1) := by
      intro hn p hp'
      obtain ⟨a, b, c⟩ := hst p hp'
      refine ⟨by omega, b, ?_⟩
      intro j h1 h2'
      by_cases hj : j = i
      · subst hj; rw [hs]; simp; exact hn p.2
      · exact c j h1 (by omega)
    unfold pairs at hp
    unfold metadata
    cases ht : s.type with
    | doo n =>
      rw [ht] at hp
      simp only at hp
      split at hp
      · cases hp
      rename_i hnm
      refine ih (i + 1) hd ((i, n) :: stack) ?_ ps hp h2 di
      intro p hp'
      rcases List.mem_cons.mp hp' with e | e
      · subst e
        refine ⟨by simp, by rw [hs]; simp [ht], ?_⟩
        intro j h1 h2'; simp only at h1; omega
      · obtain ⟨a, b, c⟩ := hst p e
        refine ⟨by omega, b, ?_⟩
        intro j h1 h2'
        by_cases hj : j = i
        · subst hj
          rw [hs]
          simp only [Option.map_some, ht, ne_eq, Option.some.injEq, SType.doo.injEq]
          intro hn
          apply hnm
          rw [hn]
          exact List.mem_map.mpr ⟨p, e, rfl⟩
        · exact c j h1 (by omega)
    | loop n =>
      rw [ht] at hp
      simp only at hp
      cases hstk : stack with
      | nil => rw [hstk] at hp; cases hp
      | cons x xs =>
        obtain ⟨d, m⟩ := x
        rw [hstk] at hp
        simp only at hp
        split at hp
        · rename_i hmn
          subst hmn
          obtain ⟨l, hl, rfl⟩ := Option.map_eq_some_iff.mp hp
          obtain ⟨a, b, c⟩ := hst (d, m) (by rw [hstk]; exact List.mem_cons_self ..)
          simp only at a b c
          have hd2 : 2 ≤ d := h2 (i, d) (List.mem_cons_self ..)
          have hsd := searchDo_spec steps m (i - 1) d hd2 (by omega) b (fun j h1 h3 => c j h1 (by omega))
          simp only [hsd, Option.some_or]
          have := hkeep (by intro n; rw [ht]; simp)
          rw [hstk] at this
          rw [ih (i + 1) hd xs (fun p hp' => this p (List.mem_cons_of_mem _ hp')) l hl
            (fun p hp' => h2 p (List.mem_cons_of_mem _ hp')) (some d)]
          rfl
        · cases hp
    | charge => rw [ht] at hp; exact ih (i + 1) hd stack (hkeep (by intro n; rw [ht]; simp)) ps hp h2 di
    | dischrge => rw [ht] at hp; exact ih (i + 1) hd stack (hkeep (by intro n; rw [ht]; simp)) ps hp h2 di
    | rest => rw [ht] at hp; exact ih (i + 1) hd stack (hkeep (by intro n; rw [ht]; simp)) ps hp h2 di
    | adv => rw [ht] at hp; exact ih (i + 1) hd stack (hkeep (by intro n; rw [ht]; simp)) ps hp h2 di
    | ende => rw [ht] at hp; exact ih (i + 1) hd stack (hkeep (by intro n; rw [ht]; simp)) ps hp h2 di
    | other t => rw [ht] at hp; exact ih (i + 1) hd stack (hkeep (by intro n; rw [ht]; simp)) ps hp h2 di

/-- C33: in a procedure with properly nested loops, none of which is opened by the first two steps,
every Loop goes to the step after its Do.  Missing: loops opened by the first or second step. -/
theorem C33_flow_partial (steps : List Step) (ps : List (Nat × Nat)) (hp : pairs [] 0 steps = some ps)
    (h2 : ∀ p ∈ ps, 2 ≤ p.2) :
    metadata steps none 0 steps = .ok (ps.map (fun p => (p.1, p.2 + 1))) :=
  metadata_spec steps steps 0 rfl [] (by intro p hp; cases hp) ps hp h2 none

/-- C33: the counter limit of a converted Loop step: below the loop count go to the step recorded
for the loop. -/
theorem C33_limit (steps : List Step) (flow : List (Nat × Nat)) (i n k : Nat) (s : Step) (e : End) (v : Rat)
    (a : AStep) (s' : Step) (hm : s.mode = .unset) (ht : s.type = .loop n) (hf : flowOf flow i = some k)
    (he : s.ends = .single e) (hv : e.value = .num v) (hc : compile steps flow i s = .ok (a, s')) :
    ∃ t l, steps[k]? = some t ∧ a.limits.head? = some (0, l) ∧ l.goto = label k t ∧
      l.left = "TC_Counter" ++ toString n ∧ l.sign = "<" ∧ l.right = v ∧ l.stepLimit = true := by
  unfold compile at hc
  simp only [bind, Except.bind] at hc
  split at hc
  · cases hc
  rename_i c hctl
  split at hc
  · cases hc
  rename_i s1 hs1
  split at hc
  · cases hc
  rename_i lm hlm
  cases hc
  have hn : n = 1 ∨ n = 2 := by
    unfold MtA.control at hctl
    rw [hm, ht] at hctl
    simp only at hctl
    split at hctl
    · assumption
    · cases hctl
  unfold addendum at hs1
  rw [hm, ht] at hs1
  simp only at hs1
  rw [if_pos hn, hf, he] at hs1
  simp only at hs1
  cases hs1
  unfold limitsOf at hlm
  simp only [bind, Except.bind] at hlm
  split at hlm
  · cases hlm
  rename_i ends hends
  rw [mapE] at hends
  simp only [bind, Except.bind] at hends
  split at hends
  · cases hends
  rename_i l hl
  split at hends
  · cases hends
  rename_i rest hrest
  cases hends
  unfold convertEnd at hl
  simp only [bind, Except.bind] at hl
  split at hl
  · cases hl
  rw [if_neg (by decide), if_neg (fun hh => absurd hh.1 (by decide)), if_neg (fun hh => absurd hh.1 (by decide)),
    if_neg (by decide), if_neg (by decide), if_pos trivial] at hl
  simp only [counterOf, hv, EVal.num?, hf] at hl
  split at hl
  · cases hl
  rename_i g hg
  cases hl
  unfold nameOf at hg
  split at hg
  · cases hg
  rename_i t htk
  cases hg
  refine ⟨t, { stepLimit := true, log := true, goto := label k t, left := "TC_Counter" ++ toString n, sign := "<",
               right := v }, htk, ?_, rfl, rfl, rfl, rfl, rfl⟩
  cases hr : s.reports with
  | absent => rw [hr] at hlm; cases hlm; rfl
  | single r =>
    rw [hr] at hlm
    simp only at hlm
    split at hlm
    · cases hlm
    · cases hlm; rfl
  | many rs =>
    rw [hr] at hlm
    simp only at hlm
    split at hlm
    · cases hlm
    · cases hlm; rfl

theorem compileAll_get (steps : List Step) (flow : List (Nat × Nat)) (i : Nat) (ss : List Step)
    (out : List (AStep × Step)) (h : compileAll steps flow i ss = .ok out) :
    out.length = ss.length ∧ ∀ (k : Nat) (s : Step), ss[k]? = some s →
      ∃ r, out[k]? = some r ∧ compile steps flow (i + k) s = .ok r := by
  induction ss generalizing i out with
  | nil => cases h; exact ⟨rfl, fun k s hk => by simp at hk⟩
  | cons s ss ih =>
    rw [compileAll] at h
    simp only [bind, Except.bind] at h
    split at h
    · cases h
    rename_i a ha
    split at h
    · cases h
    rename_i rest hrest
    cases h
    obtain ⟨h1, h2⟩ := ih (i + 1) rest hrest
    refine ⟨by simp [h1], ?_⟩
    intro k s' hk
    cases k with
    | zero => simp only [List.getElem?_cons_zero, Option.some.injEq] at hk; subst hk; exact ⟨a, rfl, ha⟩
    | succ k =>
      simp only [List.getElem?_cons_succ] at hk ⊢
      obtain ⟨r, hr, hc⟩ := h2 k s' hk
      exact ⟨r, hr, by rw [show i + (k + 1) = i + 1 + k by omega]; exact hc⟩

theorem pairs_ge (stack : List (Nat × Nat)) (i : Nat) (ss : List Step) (ps : List (Nat × Nat))
    (h : pairs stack i ss = some ps) : (∀ p ∈ ps, i ≤ p.1) ∧ (ps.map Prod.fst).Nodup := by
  induction ss generalizing stack i ps with
  | nil =>
    unfold pairs at h
    split at h
    · cases h; simp
    · cases h
  | cons s ss ih =>
    unfold pairs at h
    split at h
    · split at h
      · cases h
      · obtain ⟨a, b⟩ := ih _ _ _ h
        exact ⟨fun p hp => by have := a p hp; omega, b⟩
    · split at h
      · cases h
      · split at h
        · obtain ⟨l, hl, rfl⟩ := Option.map_eq_some_iff.mp h
          obtain ⟨a, b⟩ := ih _ _ _ hl
          refine ⟨?_, ?_⟩
          · intro p hp
            rcases List.mem_cons.mp hp with e | e
            · subst e; simp
            · have := a p e; omega
          · rw [List.map_cons, List.nodup_cons]
            refine ⟨?_, b⟩
            intro hm
            obtain ⟨p, hp, he⟩ := List.mem_map.mp hm
            have := a p hp
            simp only at he
            omega
        · cases h
    · obtain ⟨a, b⟩ := ih _ _ _ h
      exact ⟨fun p hp => by have := a p hp; omega, b⟩

theorem flowOf_map (ps : List (Nat × Nat)) (hn : (ps.map Prod.fst).Nodup) (i d : Nat) (h : (i, d) ∈ ps) :
    flowOf (ps.map (fun p => (p.1, p.2 + 1))) i = some (d + 1) := by
  unfold flowOf
  induction ps with
  | nil => cases h
  | cons p ps ih =>
    rw [List.map_cons, List.nodup_cons] at hn
    rw [List.map_cons, List.find?_cons]
    rcases List.mem_cons.mp h with e | e
    · subst e; simp
    · have : p.1 ≠ i := by
        rintro rfl
        exact hn.1 (List.mem_map.mpr ⟨_, e, rfl⟩)
      have hb : (p.1 == i) = false := by simpa using this
      rw [hb]
      exact ih hn.2 e

/-- C33: in a schedule converted from a procedure with properly nested loops, none of which is
opened by the first two steps, the first limit of every Loop sends the cycler to the step after
the Do of that loop while the loop's counter is below the loop count.  Missing: loops opened by
the first or second step. -/
theorem C33_schedule_partial (steps : List Step) (ps : List (Nat × Nat)) (hp : pairs [] 0 steps = some ps)
    (h2 : ∀ p ∈ ps, 2 ≤ p.2) (as : List AStep) (left : List Step) (h : createSdu steps = .ok (as, left))
    (i d n : Nat) (hid : (i, d) ∈ ps) (s : Step) (hs : steps[i]? = some s) (hm : s.mode = .unset)
    (ht : s.type = .loop n) (e : End) (he : s.ends = .single e) (v : Rat) (hv : e.value = .num v) :
    ∃ (a : AStep) (t : Step) (l : Limit), as[i]? = some a ∧ steps[d + 1]? = some t ∧ a.limits.head? = some (0, l) ∧
      l.goto = label (d + 1) t ∧ l.left = "TC_Counter" ++ toString n ∧ l.sign = "<" ∧ l.right = v ∧
      l.stepLimit = true := by
  unfold createSdu at h
  rw [C33_flow_partial steps ps hp h2] at h
  simp only [bind, Except.bind] at h
  split at h
  · cases h
  rename_i out hout
  cases h
  obtain ⟨r, hr, hc⟩ := (compileAll_get _ _ _ _ _ hout).2 i s hs
  rw [Nat.zero_add] at hc
  obtain ⟨a, s'⟩ := r
  obtain ⟨t, l, h1, h2, h3⟩ := C33_limit steps _ i n (d + 1) s e v a s' hm ht
    (flowOf_map ps (pairs_ge _ _ _ _ hp).2 i d hid) he hv hc
  exact ⟨a, t, l, by rw [List.getElem?_map, hr]; rfl, h1, h2, h3⟩

theorem searchDo_none (steps : List Step) (n : Nat)
    (hno : ∀ j, 2 ≤ j → (steps[j]?).map Step.type ≠ some (.doo n)) (k : Nat) : searchDo steps n k = none := by
  induction k with
  | zero => rfl
  | succ k ih =>
    cases k with
    | zero => rfl
    | succ k =>
      rw [searchDo, if_neg (hno (k + 2) (by omega))]
      exact ih

theorem metadata_none (steps : List Step) (hno : ∀ j n, 2 ≤ j → (steps[j]?).map Step.type ≠ some (.doo n))
    (i : Nat) (ss : List Step) (h : ∃ s ∈ ss, ∃ n, s.type = .loop n) :
    metadata steps none i ss = .error .valueError := by
  induction ss generalizing i with
  | nil => obtain ⟨s, hs, _⟩ := h; cases hs
  | cons s ss ih =>
    unfold metadata
    split
    · rename_i n _
      rw [searchDo_none steps n (fun j hj => hno j n hj)]
      rfl
    · rename_i hne
      apply ih
      obtain ⟨t, ht, n, hn⟩ := h
      rcases List.mem_cons.mp ht with e | e
      · subst e; exact absurd hn (hne n)
      · exact ⟨t, e, n, hn⟩

/-- C33 fails: a procedure whose loops are all opened by its first two steps cannot be
converted. -/
theorem C33_start_violated (steps : List Step)
    (hno : ∀ j n, 2 ≤ j → (steps[j]?).map Step.type ≠ some (.doo n)) (h : ∃ s ∈ steps, ∃ n, s.type = .loop n) :
    createSdu steps = .error .valueError := by
  unfold createSdu
  rw [metadata_none steps hno 0 steps h]
  rfl

/-- C33 fails: the outer loop of this procedure is opened by its first step, and after the
conversion it goes to the inside of the inner loop. -/
theorem C33_nested_violated :
    let st (t : SType) : Step := { type := t, mode := .unset, value := ⟨0, false⟩, limits := none, ends := .absent,
                                   reports := .absent, note := "" }
    let steps := [st (.doo 1), st .rest, st (.doo 2), st .rest, st (.loop 2), st .rest, st (.loop 1), st .ende]
    pairs [] 0 steps = some [(4, 2), (6, 0)] ∧ metadata steps none 0 steps = .ok [(4, 3), (6, 3)] := by
  decide +kernel

/-- the procedure used in the examples: a rest, a loop of a charge and a discharge, and the end -/
def sample : List Step :=
  let st (t : SType) (m : Mode) (x : Rat) (e : Entries End) : Step :=
    { type := t, mode := m, value := ⟨x, false⟩, limits := none, ends := e, reports := .absent, note := "" }
  [st .rest .unset 0 (.single ⟨"StepTime", "= ", 2, .time ⟨false, 0, 30, 0, []⟩⟩),
   st .rest .unset 0 (.single ⟨"StepTime", "= ", 3, .time ⟨true, 0, 0, 5, [5]⟩⟩),
   st (.doo 1) .unset 0 .absent,
   st .charge .current 1 (.many [⟨"Voltage", ">= ", 5, .num 4⟩, ⟨"Voltage", "<= ", 7, .num 2⟩]),
   st .dischrge .current 1 (.single ⟨"Voltage", "<= ", 6, .num 3⟩),
   st (.loop 1) .unset 0 (.single ⟨"Loop Cnt", "= ", 7, .num 10⟩),
   st .ende .unset 0 .absent]

/-- the hypotheses of the theorems are met by the sample -/
example : pairs [] 0 sample = some [(5, 2)] ∧
    (createSdu sample).toOption.isSome = true ∧
    ((createSdu sample).map (fun r => r.1.map (fun a => a.limits.map (fun l => (l.1, [l.2.goto, l.2.left, l.2.sign], l.2.right))))) =
      .ok [[(0, ["Next Step", "PV_CHAN_Step_Time", ">"], 1800)],
           [(0, ["Next Step", "PV_CHAN_Step_Time", ">"], 11 / 2)],
           [(0, ["Next Step", "PV_CHAN_Step_Time", ">"], 0)],
           [(0, ["Next Step", "PV_CHAN_Voltage", ">="], 4), (1, ["7-", "PV_CHAN_Voltage", "<="], 2)],
           [(0, ["Next Step", "PV_CHAN_Voltage", "<="], 3)],
           [(0, ["4-", "TC_Counter1", "<"], 10), (1, ["Next Step", "TC_Counter1", "="], 10)],
           [(0, ["Next Step", "PV_CHAN_Step_Time", ">"], 0)]] := by
  decide +kernel

/-! ### C64: control values -/

/-- C64: a charge or discharge step is converted to an Arbin step that drives the cell the same
way, when its current is in amperes or it has no limit.  Missing: rates together with limits. -/
theorem C64_control_partial (s : Step) (ht : s.type = .charge ∨ s.type = .dischrge)
    (hm : s.mode = .current ∨ s.mode = .voltage)
    (hr : ∀ l, s.limits = some l → (s.mode = .current → s.value.crate = false) ∧
      (s.mode = .voltage → l.current.crate = false)) :
    ∃ c, MtA.control s = .ok c ∧ driveOfArbin c = driveOf s ∧ (driveOf s).isSome = true := by
  rcases hm with hm | hm <;> cases hl : s.limits with
  | none =>
    cases hc : s.value.crate <;> rcases ht with ht | ht <;>
    · refine ⟨_, by unfold MtA.control; rw [hm]; simp only [hc, ht, hl]; rfl, ?_, ?_⟩
      · unfold driveOf; rw [hm]; simp only [hl, ht, hc]; rfl
      · unfold driveOf; rw [hm, hl]; rfl
  | some l =>
    obtain ⟨h1, h2⟩ := hr l hl
    first
      | have hc := h1 hm
        rcases ht with ht | ht <;>
        · refine ⟨_, by unfold MtA.control; rw [hm, hc, ht, hl]; rfl, ?_, ?_⟩
          · unfold driveOf; rw [hm, hl, ht, hc]; rfl
          · unfold driveOf; rw [hm, hl]; rfl
      | have hc := h2 hm
        rcases ht with ht | ht <;>
        · refine ⟨_, by unfold MtA.control; rw [hm]; simp only [hl, hc, ht]; rfl, ?_, ?_⟩
          · unfold driveOf; rw [hm]; simp only [hl, ht, hc]; rfl
          · unfold driveOf; rw [hm, hl]; rfl

/-- C64, the other steps: a rest or the end becomes a rest, and a rest with limits is refused; advance
cycle increments the cycle index, the end of loop 1 or 2 increments its counter, and the start of the loop
resets it; other loop numbers and other types without a mode are refused. -/
theorem C64_flow (s : Step) (hm : s.mode = .unset) :
    (s.type = .rest → s.limits = none → MtA.control s = .ok ⟨"Rest", none, none, none⟩) ∧
    (s.type = .rest → s.limits ≠ none → MtA.control s = .error .valueError) ∧
    (s.type = .ende → MtA.control s = .ok ⟨"Rest", none, none, none⟩) ∧
    (s.type = .adv → ∃ c, MtA.control s = .ok c ∧ SetsVariables c [0, 1, 2, 3] [0] []) ∧
    (∀ n, s.type = .loop n → n = 1 ∨ n = 2 → ∃ c, MtA.control s = .ok c ∧ SetsVariables c [] [n] []) ∧
    (∀ n, s.type = .doo n → n = 1 ∨ n = 2 → ∃ c, MtA.control s = .ok c ∧ SetsVariables c [15 + n] [] []) ∧
    (∀ n, s.type = .loop n ∨ s.type = .doo n → n ≠ 1 → n ≠ 2 → MtA.control s = .error .valueError) ∧
    (s.type = .charge ∨ s.type = .dischrge ∨ (∃ t, s.type = .other t) → MtA.control s = .error .valueError) := by
  unfold MtA.control
  rw [hm]
  refine ⟨?_, ?_, ?_, ?_, ?_, ?_, ?_, ?_⟩
  · intro h1 h2; rw [h1, h2]
  · intro h1 h2
    rw [h1]
    cases hl : s.limits with
    | none => exact absurd hl h2
    | some l => rfl
  · intro h1; rw [h1]
  · intro h1; rw [h1]; exact ⟨_, rfl, by simp only [SetsVariables, mask, List.map, List.sum_cons, List.sum_nil]; norm_num⟩
  · intro n h1 h2
    rw [h1]
    simp only [h2, if_true]
    refine ⟨_, rfl, ?_⟩
    rcases h2 with rfl | rfl <;> simp only [SetsVariables, mask, List.map, List.sum_cons, List.sum_nil] <;> norm_num
  · intro n h1 h2
    rw [h1]
    simp only [h2, if_true]
    refine ⟨_, rfl, ?_⟩
    rcases h2 with rfl | rfl <;> simp only [SetsVariables, mask, List.map, List.sum_cons, List.sum_nil] <;> norm_num
  · rintro n (h1 | h1) h2 h3 <;> rw [h1] <;> simp [h2, h3]
  · rintro (h1 | h1 | ⟨t, h1⟩) <;> rw [h1]

/-- C64, a mode on a step that is neither charge nor discharge: only the name of the control is set -/
theorem C64_other_types (s : Step) (h1 : s.type ≠ .charge) (h2 : s.type ≠ .dischrge)
    (hm : s.mode = .current ∨ s.mode = .voltage)
    (hr : s.mode = .voltage → ∀ l, s.limits = some l → l.current.crate = false) :
    MtA.control s = .ok ⟨controlName s, none, none, none⟩ := by
  unfold MtA.control controlName
  rcases hm with hm | hm
  · rw [hm]
    cases hl : s.limits <;> cases hc : s.value.crate <;> cases ht : s.type <;> simp_all
  · rw [hm]
    have hr := hr hm
    cases hl : s.limits <;> cases ht : s.type <;> simp_all

/-- C64, a voltage step whose current limit is a rate, and an unknown mode: refused -/
theorem C64_refused (s : Step)
    (h : (∃ t, s.mode = .other t) ∨ (s.mode = .voltage ∧ ∃ l, s.limits = some l ∧ l.current.crate = true)) :
    MtA.control s = .error .valueError := by
  unfold MtA.control
  rcases h with ⟨t, h⟩ | ⟨h, l, hl, hc⟩
  · rw [h]
  · rw [h, hl]; simp [hc]

/-- C64 fails: a charge at a rate with a voltage limit becomes a charge with that number of amperes,
and a discharge at a rate loses its voltage limit. -/
theorem C64_rate_violated (s : Step) (l : Limits) (hm : s.mode = .current) (hc : s.value.crate = true)
    (hl : s.limits = some l) :
    (s.type = .charge → ∃ c, MtA.control s = .ok c ∧
      driveOfArbin c = some (.cccv false s.value.value l.voltage.value) ∧ driveOfArbin c ≠ driveOf s) ∧
    (s.type = .dischrge → ∃ c, MtA.control s = .ok c ∧ c.ext1 = none ∧ driveOfArbin c = none) := by
  constructor
  · intro ht
    refine ⟨_, by unfold MtA.control; rw [hm, hc, ht, hl]; rfl, rfl, ?_⟩
    unfold driveOf
    rw [hm, hl, hc]
    simp [driveOfArbin]
  · intro ht
    exact ⟨_, by unfold MtA.control; rw [hm, hc, ht, hl]; rfl, rfl, rfl⟩

example : ∃ s : Step, ∃ l : Limits, s.mode = .current ∧ s.value.crate = true ∧ s.limits = some l ∧ s.type = .charge :=
  ⟨⟨.charge, .current, ⟨1, true⟩, some ⟨⟨4, false⟩, ⟨1, false⟩⟩, .absent, .absent, ""⟩, _, rfl, rfl, rfl, rfl⟩

/-! ### C65: converting twice -/

/-- a step is left unchanged unless it is a Loop -/
theorem addendum_id (flow : List (Nat × Nat)) (i : Nat) (s s' : Step) (hn : ∀ n, s.type ≠ .loop n)
    (h : addendum flow i s = .ok s') : s' = s := by
  unfold addendum at h
  split at h
  · rename_i n _ ht
    exact absurd ht (hn n)
  · cases h; rfl

theorem compileAll_id (steps : List Step) (flow : List (Nat × Nat)) (i : Nat) (ss : List Step)
    (hn : ∀ s ∈ ss, ∀ n, s.type ≠ .loop n) (out : List (AStep × Step)) (h : compileAll steps flow i ss = .ok out) :
    out.map Prod.snd = ss := by
  induction ss generalizing i out with
  | nil => cases h; rfl
  | cons s ss ih =>
    rw [compileAll] at h
    simp only [bind, Except.bind] at h
    split at h
    · cases h
    rename_i a ha
    split at h
    · cases h
    rename_i rest hrest
    cases h
    rw [List.map_cons, ih (i + 1) (fun t ht => hn t (List.mem_cons_of_mem _ ht)) rest hrest]
    unfold compile at ha
    simp only [bind, Except.bind] at ha
    split at ha
    · cases ha
    split at ha
    · cases ha
    rename_i s1 hs1
    split at ha
    · cases ha
    cases ha
    rw [addendum_id flow i s s1 (hn s (List.mem_cons_self ..)) hs1]

/-- C65: converting a procedure without loops leaves the procedure as it is, so that converting it
again gives the same schedule.  Missing: procedures with loops. -/
theorem C65_twice_partial (steps left : List Step) (as : List AStep) (hn : ∀ s ∈ steps, ∀ n, s.type ≠ .loop n)
    (h : createSdu steps = .ok (as, left)) : left = steps ∧ createSdu left = .ok (as, left) := by
  have : left = steps := by
    unfold createSdu at h
    simp only [bind, Except.bind] at h
    split at h
    · cases h
    rename_i flow hf
    split at h
    · cases h
    rename_i out hout
    cases h
    exact compileAll_id steps flow 0 steps hn out hout
  exact ⟨this, by rw [this]; rw [this] at h; exact h⟩

/-- C65 fails: the procedure left behind by the first conversion of the sample cannot be converted
again. -/
theorem C65_twice_violated :
    ∃ as left, createSdu sample = .ok (as, left) ∧ createSdu left = .error .typeError := by
  have : (createSdu sample).bind (fun r => createSdu r.2) = .error .typeError ∧
      (createSdu sample).toOption.isSome = true := by decide +kernel
  cases h : createSdu sample with
  | error e => rw [h] at this; exact absurd this.2 (by simp [Except.toOption])
  | ok r => rw [h] at this; exact ⟨r.1, r.2, rfl, this.1⟩

/-- a procedure to which `C65_twice_partial` applies -/
example : (createSdu [sample[0], sample[1]]).toOption.isSome = true ∧
    ∀ s ∈ [sample[0], sample[1]], ∀ n, s.type ≠ .loop n := by
  constructor
  · decide +kernel
  · intro s hs n
    rcases List.mem_cons.mp hs with e | e
    · subst e; intro h; cases h
    · rcases List.mem_cons.mp e with e | e
      · subst e; intro h; cases h
      · cases e

end Beep.Props.MaccorToArbin
