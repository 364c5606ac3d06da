import Verif.Proof.Base
import Verif.Proof.Text
import Verif.Proof.Pandas
import Verif.Spec.Parsers
/-
Lemmas for C41-C44, C67.
-/
namespace Beep.Proof.Parsers
open Beep Text Pandas Parsers Spec.Parsers

/-! ### Splicing -/

theorem never_tail {α : Type} {a : Row α} {l : List (Row α)} {c : Col} (h : NeverDecreases (a :: l) c) :
    NeverDecreases l c := fun i x y hx hy => h (i + 1) x y (by simpa using hx) (by simpa using hy)

theorem never_append {α : Type} {d₁ d₂ : List (Row α)} {c : Col} (h1 : NeverDecreases d₁ c)
    (h2 : NeverDecreases d₂ c)
    (h : ∀ l f, d₁.getLast? = some l → d₂.head? = some f → l.counter c ≤ f.counter c) :
    NeverDecreases (d₁ ++ d₂) c := by
  induction d₁ with
  | nil => simpa using h2
  | cons a l ih =>
    cases l with
    | nil =>
      intro i x y hx hy
      cases i with
      | zero =>
        simp only [List.cons_append, List.nil_append, List.getElem?_cons_zero, Option.some.injEq] at hx
        subst hx
        apply h a y (by simp)
        simpa [List.head?_eq_getElem?] using hy
      | succ i =>
        exact h2 i x y (by simpa using hx) (by simpa using hy)
    | cons b l =>
      have ih := ih (never_tail h1) (fun x f hx hf => h x f (by simpa [List.getLast?_cons_cons] using hx) hf)
      intro i x y hx hy
      cases i with
      | zero =>
        exact h1 0 x y (by simpa using hx) (by simpa using hy)
      | succ i =>
        exact ih i x y (by simpa using hx) (by simpa using hy)

/-! ### Neware -/

theorem length_testTimeFrom (p a : Rat) (ts : List Rat) : (testTimeFrom p a ts).length = ts.length := by
  induction ts generalizing p a with
  | nil => rfl
  | cons t ts ih => simp [testTimeFrom, ih]

theorem testTimeFrom_step (p a : Rat) (ts : List Rat) (i : Nat) (x y s t : Rat)
    (hx : (a :: testTimeFrom p a ts)[i]? = some x) (hy : (a :: testTimeFrom p a ts)[i + 1]? = some y)
    (hs : (p :: ts)[i]? = some s) (ht : (p :: ts)[i + 1]? = some t) :
    y = x + (if t - s < 0 then 0 else t - s) := by
  induction ts generalizing p a i with
  | nil => simp [testTimeFrom] at hy
  | cons u ts ih =>
    cases i with
    | zero =>
      simp [testTimeFrom] at hx hy hs ht
      subst hx hs ht hy
      simp
    | succ i =>
      exact ih u _ i (by simpa [testTimeFrom] using hx) (by simpa [testTimeFrom] using hy)
        (by simpa using hs) (by simpa using ht)

theorem mem_splitC (c : Char) (s : Str) : ∀ f ∈ splitC c s, c ∉ f := by
  induction s with
  | nil => simp [splitC]
  | cons a s ih =>
    unfold splitC
    split
    · intro f hf
      rcases List.mem_cons.mp hf with rfl | hf
      · simp
      · exact ih f hf
    · rename_i hac
      split
      · intro f hf
        simp only [List.mem_singleton] at hf
        subst hf
        simp only [List.mem_singleton]
        exact fun h => hac h.symm
      · rename_i w ws e
        intro f hf
        rcases List.mem_cons.mp hf with rfl | hf
        · have := ih w (by rw [e]; simp)
          simp only [List.mem_cons, not_or]
          exact ⟨fun h => hac h.symm, this⟩
        · exact ih f (by rw [e]; exact List.mem_cons_of_mem _ hf)

theorem take2_iff (l : Str) (a b : Char) : l.take 2 = [a, b] ↔ ∃ t, l = a :: b :: t := by
  constructor
  · intro h
    match l with
    | [] => simp at h
    | [x] => simp at h
    | x :: y :: t =>
      simp only [List.take_succ_cons, List.take_zero, List.cons.injEq, and_true] at h
      exact ⟨t, by rw [h.1, h.2]⟩
  · rintro ⟨t, rfl⟩; rfl

theorem isStep_iff (l : Str) : l.take 2 = [',', '"'] ↔ IsStepLine l := take2_iff l _ _
theorem isRecord_iff (l : Str) : l.take 2 = [',', ','] ↔ IsRecordLine l := take2_iff l _ _

/-- what the loop remembers after the lines `ls` -/
structure Seen (irIndex : Nat) (ls : List Str) (st : LineState) : Prop where
  cycle : ∀ n, st.cycle = some n → ∃ c, IsLast IsCycleLine ls c ∧ (fields c)[0]? = some n
  step : ∀ n, st.step = some n → ∃ s, IsLast IsStepLine ls s ∧ (fields s)[1]? = some n ∧
    (fields s)[irIndex]? = st.ir ∧ ∃ r, st.ir = some r
  noStep : st.step = none → st.ir = none ∧ ∀ l ∈ ls, ¬ IsStepLine l
  noCycle : st.cycle = none → ∀ l ∈ ls, ¬ IsCycleLine l

theorem isLast_append_no {p : Str → Prop} {ls : List Str} {l x : Str} (h : IsLast p ls l) (hx : ¬ p x) :
    IsLast p (ls ++ [x]) l := by
  obtain ⟨hp, pre, post, rfl, hq⟩ := h
  refine ⟨hp, pre, post ++ [x], by simp, ?_⟩
  intro y hy
  rcases List.mem_append.mp hy with h | h
  · exact hq y h
  · simp only [List.mem_singleton] at h; rw [h]; exact hx

theorem isLast_append_yes {p : Str → Prop} (ls : List Str) {x : Str} (hx : p x) :
    IsLast p (ls ++ [x]) x := ⟨hx, ls, [], rfl, by simp⟩

theorem isLast_unique {p : Str → Prop} {ls : List Str} {a b : Str} (h1 : IsLast p ls a) (h2 : IsLast p ls b) :
    a = b := by
  obtain ⟨hp, pre, post, rfl, hq⟩ := h1
  obtain ⟨hp', pre', post', e, hq'⟩ := h2
  rcases List.append_eq_append_iff.mp e with ⟨m, e1, e2⟩ | ⟨m, e1, e2⟩
  · cases m with
    | nil => simp at e2; exact e2.1
    | cons y m =>
      simp only [List.cons_append, List.cons.injEq] at e2
      exact absurd hp' (hq b (by rw [e2.2]; simp))
  · cases m with
    | nil => simp at e2; exact e2.1.symm
    | cons y m =>
      simp only [List.cons_append, List.cons.injEq] at e2
      exact absurd hp (hq' a (by rw [e2.2]; simp))

theorem seen_init (ir : Nat) : Seen ir [] initState :=
  ⟨by simp [initState], by simp [initState], by simp [initState], by simp [initState]⟩

theorem not_both {l : Str} (h1 : IsStepLine l) (h2 : IsRecordLine l) : False := by
  obtain ⟨t, rfl⟩ := h1
  obtain ⟨u, hu⟩ := h2
  simp at hu

/-- one line: what is remembered and what is written -/
theorem routeLine_spec {ir : Nat} {ls : List Str} {st st' : LineState} {l : Str} {out : Option Str}
    (hs : Seen ir ls st) (h : routeLine ir st l = .ok (st', out)) :
    Seen ir (ls ++ [l]) st' ∧ (¬ IsRecordLine l → out = none) ∧
      (IsRecordLine l → ∃ o c s, out = some o ∧ IsLast IsCycleLine ls c ∧ IsLast IsStepLine ls s ∧
        Carries ir c s l o) := by
  unfold routeLine at h
  split at h
  · rename_i h1
    have h1 := (isStep_iff l).mp h1
    have h2 : ¬ IsRecordLine l := fun h => not_both h1 h
    have h3 : ¬ IsCycleLine l := fun h => h.1 h1
    split at h
    · rename_i n r hn hr
      cases h
      refine ⟨⟨?_, ?_, by simp, ?_⟩, fun _ => rfl, fun h => absurd h h2⟩
      · intro n' hn'
        obtain ⟨c, hc, hf⟩ := hs.cycle n' hn'
        exact ⟨c, isLast_append_no hc h3, hf⟩
      · intro n' hn'
        cases hn'
        exact ⟨l, isLast_append_yes ls h1, hn, hr, r, rfl⟩
      · intro hc y hy
        rcases List.mem_append.mp hy with h | h
        · exact hs.noCycle hc y h
        · simp only [List.mem_singleton] at h; rw [h]; exact h3
    · exact absurd h (by simp)
  · rename_i h1
    have h1 : ¬ IsStepLine l := fun h => h1 ((isStep_iff l).mpr h)
    split at h
    · rename_i h2
      have h2 := (isRecord_iff l).mp h2
      have h3 : ¬ IsCycleLine l := fun h => h.2 h2
      split at h
      · exact absurd h (by simp)
      · rename_i r hr
        simp only [bind, Except.bind] at h
        split at h
        · exact absurd h (by simp)
        rename_i l₂ hl₂
        unfold setField at hl₂
        split at hl₂
        · rename_i hlt
          cases hl₂
          split at h
          · rename_i nc ns hc hstep
            cases h
            refine ⟨⟨?_, ?_, ?_, ?_⟩, fun h => absurd h2 h, fun _ => ?_⟩
            · intro n' hn'
              obtain ⟨c, hc, hf⟩ := hs.cycle n' hn'
              exact ⟨c, isLast_append_no hc h3, hf⟩
            · intro n' hn'
              obtain ⟨c, hc, hf⟩ := hs.step n' hn'
              exact ⟨c, isLast_append_no hc h1, hf⟩
            · intro h; rw [hstep] at h; cases h
            · intro h; rw [hc] at h; cases h
            · obtain ⟨c, hcl, hcf⟩ := hs.cycle nc hc
              obtain ⟨s, hsl, hsf, hsr, -⟩ := hs.step ns hstep
              refine ⟨_, c, s, rfl, hcl, hsl, ?_⟩
              have hf : fields (join [','] ((((splitC ',' l).set 0 (st.cycle.getD [])).set 1
                  (st.step.getD [])).set 22 r)) = ((((splitC ',' l).set 0 nc).set 1 ns).set 22 r) := by
                rw [hc, hstep]
                simp only [Option.getD_some]
                refine splitC_join ',' _ ?_ ?_
                · simp only [ne_eq, List.set_eq_nil_iff]
                  exact splitC_ne_nil _ _
                · intro f hf
                  have hcase : f ∈ splitC ',' l ∨ f = nc ∨ f = ns ∨ f = r := by
                    rcases List.mem_or_eq_of_mem_set hf with hf | hf
                    · rcases List.mem_or_eq_of_mem_set hf with hf | hf
                      · rcases List.mem_or_eq_of_mem_set hf with hf | hf
                        · exact Or.inl hf
                        · exact Or.inr (Or.inl hf)
                      · exact Or.inr (Or.inr (Or.inl hf))
                    · exact Or.inr (Or.inr (Or.inr hf))
                  rcases hcase with hf | hf | hf | hf
                  · exact mem_splitC _ _ f hf
                  · rw [hf]; exact mem_splitC _ c nc (List.mem_of_getElem? hcf)
                  · rw [hf]; exact mem_splitC _ s ns (List.mem_of_getElem? hsf)
                  · rw [hf]; rw [hr] at hsr; exact mem_splitC _ s r (List.mem_of_getElem? hsr)
              have hlt' : 22 < (splitC ',' l).length := by simpa using hlt
              unfold Carries
              rw [hf, hcf, hsf, hsr, hr]
              refine ⟨by simp [fields], ?_, ?_, ?_, ?_⟩
              · rw [List.getElem?_set_ne (by decide), List.getElem?_set_ne (by decide),
                  List.getElem?_set_self (by omega)]
              · rw [List.getElem?_set_ne (by decide), List.getElem?_set_self (by simp; omega)]
              · rw [List.getElem?_set_self (by simp; omega)]
              · intro k h0 h1 h22
                have e0 : ¬ 0 = k := fun h => h0 h.symm
                have e1 : ¬ 1 = k := fun h => h1 h.symm
                have e2 : ¬ 22 = k := fun h => h22 h.symm
                rw [List.getElem?_set, if_neg e2, List.getElem?_set, if_neg e1, List.getElem?_set, if_neg e0]
                rfl
          · exact absurd h (by simp)
        · exact absurd hl₂ (by simp)
    · rename_i h2
      have h2 : ¬ IsRecordLine l := fun h => h2 ((isRecord_iff l).mpr h)
      have h3 : IsCycleLine l := ⟨h1, h2⟩
      split at h
      · rename_i n hn
        cases h
        refine ⟨⟨?_, ?_, ?_, by simp⟩, fun _ => rfl, fun h => absurd h h2⟩
        · intro n' hn'
          cases hn'
          exact ⟨l, isLast_append_yes ls h3, hn⟩
        · intro n' hn'
          obtain ⟨c, hc, hf⟩ := hs.step n' hn'
          exact ⟨c, isLast_append_no hc h1, hf⟩
        · intro hc
          obtain ⟨a, b⟩ := hs.noStep hc
          refine ⟨a, fun y hy => ?_⟩
          rcases List.mem_append.mp hy with h | h
          · exact b y h
          · simp only [List.mem_singleton] at h; rw [h]; exact h1
      · exact absurd h (by simp)

theorem routeLines_cons {ir : Nat} {st : LineState} {l : Str} {ls out : List Str}
    (h : routeLines ir st (l :: ls) = .ok out) :
    ∃ st' o rest, routeLine ir st l = .ok (st', o) ∧ routeLines ir st' ls = .ok rest ∧
      out = o.toList ++ rest := by
  simp only [routeLines, bind, Except.bind] at h
  split at h
  · cases h
  rename_i p hp
  obtain ⟨st', o⟩ := p
  simp only at h
  split at h
  · cases h
  rename_i rest hr
  cases h
  exact ⟨st', o, rest, hp, hr, rfl⟩

theorem routeLines_spec {ir : Nat} (ls : List Str) : ∀ (seen : List Str) (st : LineState) (out : List Str),
    Seen ir seen st → routeLines ir st ls = .ok out →
    Records ls out.length ∧
    ∀ pre line post n, ls = pre ++ line :: post → IsRecordLine line → Records pre n →
      ∃ o c s, out[n]? = some o ∧ IsLast IsCycleLine (seen ++ pre) c ∧ IsLast IsStepLine (seen ++ pre) s ∧
        Carries ir c s line o := by
  induction ls with
  | nil =>
    intro seen st out hs h
    cases h
    exact ⟨.nil, fun pre line post n h => by simp at h⟩
  | cons l ls ih =>
    intro seen st out hs h
    obtain ⟨st', o, rest, h1, h2, rfl⟩ := routeLines_cons h
    obtain ⟨hs', hno, hyes⟩ := routeLine_spec hs h1
    obtain ⟨i1, i2⟩ := ih _ st' rest hs' h2
    constructor
    · by_cases hl : IsRecordLine l
      · obtain ⟨o', c, s, rfl, -⟩ := hyes hl
        simpa using Records.yes hl i1
      · rw [hno hl]
        simpa using Records.no hl i1
    · intro pre line post n e hline hrec
      cases pre with
      | nil =>
        simp only [List.nil_append, List.cons.injEq] at e
        obtain ⟨rfl, rfl⟩ := e
        cases hrec
        obtain ⟨o', c, s, rfl, hc, hs2, hcar⟩ := hyes hline
        exact ⟨o', c, s, rfl, by simpa using hc, by simpa using hs2, hcar⟩
      | cons p pre =>
        simp only [List.cons_append, List.cons.injEq] at e
        obtain ⟨rfl, rfl⟩ := e
        cases hrec with
        | @yes _ _ m hl hrec =>
          obtain ⟨o', -, -, rfl, -⟩ := hyes hl
          obtain ⟨o2, c, s, ho, hc, hs2, hcar⟩ := i2 pre line post m rfl hline hrec
          refine ⟨o2, c, s, by simpa using ho, by simpa using hc, by simpa using hs2, hcar⟩
        | no hl hrec =>
          obtain ⟨o2, c, s, ho, hc, hs2, hcar⟩ := i2 pre line post n rfl hline hrec
          refine ⟨o2, c, s, by rw [hno hl]; simpa using ho, by simpa using hc, by simpa using hs2, hcar⟩

/-- files with enough fields and a cycle and a step line before each record are accepted -/
theorem routeLines_ok {ir : Nat} (ls : List Str) : ∀ (seen : List Str) (st : LineState), Seen ir seen st →
    (∀ l ∈ ls, IsStepLine l → ir < (fields l).length ∧ 1 < (fields l).length) →
    (∀ l ∈ ls, IsRecordLine l → 22 < (fields l).length) →
    (∀ pre line post, ls = pre ++ line :: post → IsRecordLine line →
      (∃ c ∈ seen ++ pre, IsCycleLine c) ∧ (∃ s ∈ seen ++ pre, IsStepLine s)) →
    ∃ out, routeLines ir st ls = .ok out := by
  induction ls with
  | nil => intro seen st _ _ _ _; exact ⟨[], rfl⟩
  | cons l ls ih =>
    intro seen st hs h1 h2 h3
    have hl : ∃ p, routeLine ir st l = .ok p := by
      unfold routeLine
      split
      · rename_i hst
        obtain ⟨a, b⟩ := h1 l (by simp) ((isStep_iff l).mp hst)
        simp only [fields] at a b
        rw [List.getElem?_eq_getElem a, List.getElem?_eq_getElem b]
        exact ⟨_, rfl⟩
      · split
        · rename_i hrec
          have hr := (isRecord_iff l).mp hrec
          obtain ⟨⟨c, hc, hcl⟩, ⟨s, hsm, hsl⟩⟩ := h3 [] l ls rfl hr
          simp only [List.append_nil] at hc hsm
          have hlen := h2 l (by simp) hr
          simp only [fields] at hlen
          cases e1 : st.cycle with
          | none => exact absurd hcl (hs.noCycle e1 c hc)
          | some nc =>
            cases e2 : st.step with
            | none => exact absurd hsl ((hs.noStep e2).2 s hsm)
            | some ns =>
              obtain ⟨s', -, -, -, r, e3⟩ := hs.step ns e2
              simp only [e3]
              simp only [bind, Except.bind, setField, List.length_set, hlen, if_true]
              exact ⟨_, rfl⟩
        · have : splitC ',' l ≠ [] := splitC_ne_nil _ _
          have h0 : 0 < (splitC ',' l).length := List.length_pos_of_ne_nil this
          rw [List.getElem?_eq_getElem h0]
          exact ⟨_, rfl⟩
    obtain ⟨⟨st', o⟩, hp⟩ := hl
    obtain ⟨hs', -, -⟩ := routeLine_spec hs hp
    obtain ⟨rest, hrest⟩ := ih (seen ++ [l]) st' hs' (fun x hx => h1 x (List.mem_cons_of_mem _ hx))
      (fun x hx => h2 x (List.mem_cons_of_mem _ hx)) (by
        intro pre line post e hr
        have := h3 (l :: pre) line post (by rw [e]; rfl) hr
        simpa using this)
    refine ⟨o.toList ++ rest, ?_⟩
    simp only [routeLines, bind, Except.bind, hp, hrest]

/-! ### Battery Archive -/

theorem decide_activity (i j : Rat) :
    decideStepIndex i = decideStepIndex j ↔ activity i = activity j := by
  have key : ∀ i, (decideStepIndex i = 1 ∧ activity i = .rest) ∨ (decideStepIndex i = 2 ∧ activity i = .charge) ∨
      (decideStepIndex i = 3 ∧ activity i = .discharge) := by
    intro i
    unfold decideStepIndex activity absR
    have he : (0 : Rat) < 1 / 1000000 := by norm_num
    generalize (1 : Rat) / 1000000 = e at he
    by_cases h0 : i < 0
    · have hp : ¬ 0 < i := by linarith
      have hq : i < e := by linarith
      by_cases h1 : -i < e
      · have : -e < i := by linarith
        simp [h0, h1, hq, this]
      · have : ¬ -e < i := by intro h; apply h1; linarith
        simp [h0, h1, hp, this]
    · have hq : -e < i := by linarith
      by_cases h1 : i < e
      · simp [h0, h1, hq]
      · have : 0 < i := by linarith
        simp [h0, h1, this]
  rcases key i with ⟨a, b⟩ | ⟨a, b⟩ | ⟨a, b⟩ <;> rcases key j with ⟨c, d⟩ | ⟨c, d⟩ | ⟨c, d⟩ <;>
    simp [a, b, c, d]

/-- for each row the test time at which its step started -/
def startsFrom (prev : Nat) (t : Rat) : List BaRow → List Rat
  | [] => []
  | r :: rs =>
    if decideStepIndex r.current = prev then t :: startsFrom prev t rs
    else r.time :: startsFrom (decideStepIndex r.current) r.time rs

theorem repeats_from (times : List Rat) (rs : List BaRow) : ∀ (c i s : Nat), c < i →
    (∀ k r, rs[k]? = some r → times[i + k]? = some r.time) →
    repeats times (c :: changesFrom s i (rs.map (fun r => decideStepIndex r.current)))
      (changesFrom s i (rs.map (fun r => decideStepIndex r.current)) ++ [i + rs.length - 1]) =
    (List.replicate (i - c) (times[c]?.getD 0) ++ startsFrom s (times[c]?.getD 0) rs).dropLast := by
  induction rs with
  | nil =>
    intro c i s hc _
    simp only [List.map_nil, changesFrom, List.nil_append, List.length_nil, Nat.add_zero, repeats,
      startsFrom, List.append_nil, List.dropLast_replicate]
    congr 1
    omega
  | cons r rs ih =>
    intro c i s hc ht
    have ht' : ∀ k q, rs[k]? = some q → times[i + 1 + k]? = some q.time := by
      intro k q hk
      have := ht (k + 1) q (by simpa using hk)
      rw [show i + 1 + k = i + (k + 1) by omega]
      exact this
    have hr : times[i]? = some r.time := ht 0 r rfl
    simp only [List.map_cons, changesFrom, startsFrom]
    by_cases h : decideStepIndex r.current = s
    · simp only [h, if_true]
      have := ih c (i + 1) s (by omega) ht'
      rw [show i + (r :: rs).length - 1 = i + 1 + rs.length - 1 by simp only [List.length_cons]; omega, this,
        show i + 1 - c = (i - c) + 1 by omega, List.replicate_succ', List.append_assoc]
      rfl
    · simp only [h, if_false, List.cons_append]
      have := ih i (i + 1) (decideStepIndex r.current) (by omega) ht'
      rw [repeats, show i + (r :: rs).length - 1 = i + 1 + rs.length - 1 by simp only [List.length_cons]; omega, this, hr,
        show i + 1 - i = 1 by omega]
      simp only [Option.getD_some, List.replicate_one, List.cons_append, List.nil_append]
      exact (List.dropLast_append_of_ne_nil (List.cons_ne_nil _ _)).symm

/-- what is subtracted: the start of the step, but the last row reuses the entry before it -/
theorem stepTimes_eq (r : BaRow) (rs : List BaRow) (h : rs ≠ []) :
    ∃ l, ((r.time :: startsFrom (decideStepIndex r.current) r.time rs).dropLast).getLast? = some l ∧
      stepTimes (r :: rs) = .ok (List.zipWith (· - ·) ((r :: rs).map BaRow.time)
        ((r.time :: startsFrom (decideStepIndex r.current) r.time rs).dropLast ++ [l])) := by
  have hrep := repeats_from ((r :: rs).map BaRow.time) rs 0 1 (decideStepIndex r.current) (by omega) (by
    intro k q hk
    rw [Nat.add_comm]
    simp [hk])
  have hne : (r.time :: startsFrom (decideStepIndex r.current) r.time rs).dropLast ≠ [] := by
    cases rs with
    | nil => exact absurd rfl h
    | cons q qs =>
      simp only [startsFrom]
      split <;> simp
  obtain ⟨l, hl⟩ : ∃ l, ((r.time :: startsFrom (decideStepIndex r.current) r.time rs).dropLast).getLast? = some l :=
    ⟨_, List.getLast?_eq_some_getLast hne⟩
  refine ⟨l, hl, ?_⟩
  unfold stepTimes
  simp only [List.map_cons, changes] at hrep ⊢
  simp only [Nat.sub_zero, List.replicate_one, List.getElem?_cons_zero, Option.getD_some,
    List.cons_append, List.nil_append] at hrep
  rw [show (r :: rs).length - 1 = 1 + rs.length - 1 by simp only [List.length_cons]; omega, hrep, hl]

theorem length_startsFrom (p : Nat) (t : Rat) (rs : List BaRow) : (startsFrom p t rs).length = rs.length := by
  induction rs generalizing p t with
  | nil => rfl
  | cons r rs ih => unfold startsFrom; split <;> simp [ih]

theorem startsFrom_step (p : BaRow) (t : Rat) (rs : List BaRow) (i : Nat) (a b : BaRow) (x : Rat)
    (ha : (p :: rs)[i]? = some a) (hb : (p :: rs)[i + 1]? = some b)
    (hx : (t :: startsFrom (decideStepIndex p.current) t rs)[i]? = some x) :
    (t :: startsFrom (decideStepIndex p.current) t rs)[i + 1]? =
      some (if decideStepIndex b.current = decideStepIndex a.current then x else b.time) := by
  induction rs generalizing p t i with
  | nil => simp at hb
  | cons r rs ih =>
    cases i with
    | zero =>
      simp only [List.getElem?_cons_zero, Option.some.injEq, Nat.zero_add, List.getElem?_cons_succ] at ha hb hx
      subst ha hb hx
      simp only [Nat.zero_add, List.getElem?_cons_succ, startsFrom]
      split <;> simp
    | succ i =>
      simp only [List.getElem?_cons_succ] at ha hb hx ⊢
      simp only [startsFrom] at hx ⊢
      split at hx
      · rename_i he
        simp only [he, if_true]
        rw [← he] at hx ⊢
        exact ih r t i ha (by simpa using hb) hx
      · rename_i he
        simp only [he, if_false]
        exact ih r r.time i ha (by simpa using hb) hx

/-- the entry for a row is the test time of the first row of its step -/
theorem starts_spec (r : BaRow) (rs : List BaRow) (i : Nat) : ∀ (j : Nat) (b : BaRow),
    StepStart (r :: rs) j i → (r :: rs)[i]? = some b →
    ∃ a, (r :: rs)[j]? = some a ∧
      (r.time :: startsFrom (decideStepIndex r.current) r.time rs)[i]? = some a.time := by
  induction i with
  | zero =>
    intro j b h hb
    have : j = 0 := by have := h.1; omega
    subst this
    exact ⟨r, rfl, rfl⟩
  | succ i ih =>
    intro j b h hb
    have hi : i + 1 < (r :: rs).length := (List.getElem?_eq_some_iff.mp hb).1
    obtain ⟨p, hp⟩ : ∃ p, (r :: rs)[i]? = some p := ⟨_, List.getElem?_eq_getElem (by omega)⟩
    have hlen : (r.time :: startsFrom (decideStepIndex r.current) r.time rs).length = (r :: rs).length := by
      simp [length_startsFrom]
    obtain ⟨x, hx⟩ : ∃ x, (r.time :: startsFrom (decideStepIndex r.current) r.time rs)[i]? = some x :=
      ⟨_, List.getElem?_eq_getElem (by omega)⟩
    have hstep := startsFrom_step r r.time rs i p b x hp hb hx
    rcases Nat.lt_or_ge i j with hij | hij
    · have hj : j = i + 1 := by have := h.1; omega
      subst hj
      have hne := h.2.2 i p b rfl hp hb
      refine ⟨b, hb, ?_⟩
      rw [hstep, if_neg]
      intro e
      exact hne ((decide_activity _ _).mp e).symm
    · have heq := h.2.1 i p b hij (by omega) hp hb
      rw [hstep, if_pos ((decide_activity _ _).mpr heq.symm)]
      have hs : StepStart (r :: rs) j i := by
        refine ⟨hij, ?_, h.2.2⟩
        intro k a b' h1 h2 h3 h4
        rw [hp] at h4
        cases h4
        rw [heq]
        exact h.2.1 k a b h1 (by omega) h3 hb
      obtain ⟨a, ha, hx'⟩ := ih j p hs hp
      refine ⟨a, ha, ?_⟩
      rw [hx] at hx'
      exact hx'

/-! ### Novonix -/

theorem charges_iff (r : NvRow) : r.charges = true ↔ ChargeStep r.step := by
  unfold NvRow.charges stepName ChargeStep
  by_cases h0 : r.step = 0
  · simp [h0, StepName.isCharge]
  by_cases h1 : r.step = 1
  · simp [h1, StepName.isCharge]
  by_cases h2 : r.step = 2
  · simp [h2, StepName.isCharge]
  by_cases h7 : r.step = 7
  · simp [h7, StepName.isCharge]
  by_cases h8 : r.step = 8
  · simp [h8, StepName.isCharge]
  by_cases h9 : r.step = 9
  · simp [h9, StepName.isCharge]
  by_cases h10 : r.step = 10
  · simp [h10, StepName.isCharge]
  simp [h0, h1, h2, h7, h8, h9, h10]

theorem rest_iff (i : Int) : stepName i = some .rest ↔ RestStep i := by
  unfold stepName RestStep
  by_cases h0 : i = 0
  · simp [h0]
  · simp only [h0, if_false, iff_false]
    split_ifs <;> simp

theorem known_iff (i : Int) : (stepName i).isSome = true ↔ RestStep i ∨ ChargeStep i ∨ DischargeStep i := by
  unfold stepName RestStep ChargeStep DischargeStep
  split_ifs <;> simp <;> omega

theorem highest_maxN (rows : List NvRow) (p : NvRow → Bool) (q : NvRow → Option Rat) (m : Rat)
    (h : Highest rows (fun r => p r = true) q m) : maxN ((rows.filter p).map q) = some m := by
  obtain ⟨⟨r, hr, hp, hq⟩, hmax⟩ := h
  have hmem : some m ∈ (rows.filter p).map q :=
    List.mem_map.mpr ⟨r, List.mem_filter.mpr ⟨hr, hp⟩, hq⟩
  cases e : maxN ((rows.filter p).map q) with
  | none => exact absurd ⟨m, hmem⟩ ((maxN_none _).mp e)
  | some w =>
    obtain ⟨h1, h2⟩ := maxN_some _ _ e
    obtain ⟨r', hr', hq'⟩ := List.mem_map.mp h1
    obtain ⟨ha, hb⟩ := List.mem_filter.mp hr'
    have e1 := hmax r' ha hb w hq'
    have e2 := h2 m hmem
    rw [le_antisymm e1 e2]

end Beep.Proof.Parsers
