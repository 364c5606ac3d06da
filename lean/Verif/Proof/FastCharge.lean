import Verif.Proof.Rounding
import Verif.Model.FastCharge
import Verif.Spec.FastCharge
import Verif.Props.Schedule
import Verif.Proof.Base
/-
Lemmas about decimal texts and about schedules under edits.
-/
namespace Beep.Proof.FastCharge
open Beep Beep.Dash Beep.Arbin Beep.Pandas Beep.Spec.Dash Beep.Spec.Schedule Beep.Spec.FastCharge
open Beep.Props.Schedule Beep.Props.Dash

theorem digits_toDigits (n : Nat) : Digits (Nat.toDigits 10 n) := fun c hc =>
  Nat.isDigit_of_mem_toDigits (b := 10) (by decide) (by decide) hc

theorem ofDigits_append (a b : Str) (i : Nat) :
    Nat.ofDigitChars 10 (a ++ b) i = Nat.ofDigitChars 10 b (Nat.ofDigitChars 10 a i) := by
  simp [Nat.ofDigitChars, List.foldl_append]

theorem ofDigits_zeros (n i : Nat) : Nat.ofDigitChars 10 (List.replicate n '0') i = i * 10 ^ n := by
  induction n generalizing i with
  | zero => simp [Nat.ofDigitChars]
  | succ n ih =>
    have e : Nat.ofDigitChars 10 (List.replicate (n + 1) '0') i = Nat.ofDigitChars 10 (List.replicate n '0') (10 * i) := by
      simp [Nat.ofDigitChars, List.replicate_succ]
    rw [e, ih, pow_succ]
    ring

theorem strip_split (f : Str) : ∃ n, f = rstripZeros f ++ List.replicate n '0' := by
  refine ⟨(f.reverse.takeWhile (· = '0')).length, ?_⟩
  have h : f.reverse = f.reverse.takeWhile (· = '0') ++ f.reverse.dropWhile (· = '0') :=
    (List.takeWhile_append_dropWhile).symm
  have h2 : f.reverse.takeWhile (· = '0') = List.replicate (f.reverse.takeWhile (· = '0')).length '0' := by
    rw [List.eq_replicate_iff]
    refine ⟨rfl, fun c hc => ?_⟩
    have := List.all_eq_true.mp List.all_takeWhile c hc
    simpa using this
  have h3 := congrArg List.reverse h
  rw [List.reverse_reverse, List.reverse_append] at h3
  conv at h3 => rhs; rw [h2]
  rw [List.reverse_replicate] at h3
  exact h3

theorem strip_point (a f : Str) : rstripZeros (a ++ '.' :: f) = a ++ '.' :: rstripZeros f := by
  unfold rstripZeros
  rw [List.reverse_append, List.reverse_cons, List.append_assoc, List.dropWhile_append]
  by_cases h : (f.reverse.dropWhile (· = '0')).isEmpty = true
  · rw [if_pos h]
    rw [List.isEmpty_iff] at h
    rw [h]
    simp
  · rw [if_neg h]
    simp

theorem denotes_strip (neg : Bool) (ip f : Str) (h0 : ip ≠ []) (h1 : Digits ip) (h2 : Digits f) :
    Denotes (rstripZeros ((if neg then ['-'] else []) ++ ip ++ '.' :: f))
      ((if neg then -1 else 1) * ((Nat.ofDigitChars 10 ip 0 : Rat) + (Nat.ofDigitChars 10 f 0 : Rat) / 10 ^ f.length)) := by
  obtain ⟨n, hn⟩ := strip_split f
  rw [strip_point]
  refine ⟨neg, ip, rstripZeros f, rfl, h0, h1, ?_, ?_⟩
  · intro c hc
    apply h2
    rw [hn]
    exact List.mem_append_left _ hc
  · congr 2
    generalize rstripZeros f = g at hn
    subst hn
    rw [ofDigits_append, ofDigits_zeros, List.length_append, List.length_replicate, pow_add]
    push_cast
    have : (10 : Rat) ^ n ≠ 0 := by positivity
    have h' : (10 : Rat) ^ g.length ≠ 0 := by positivity
    field_simp

theorem thousandths_denotes (k : Nat) : ∃ ip f : Str, thousandths k = ip ++ '.' :: f ∧ ip ≠ [] ∧ Digits ip ∧ Digits f ∧
    (Nat.ofDigitChars 10 ip 0 : Rat) + (Nat.ofDigitChars 10 f 0 : Rat) / 10 ^ f.length = (k : Rat) / 1000 := by
  refine ⟨Nat.toDigits 10 (k / 1000), _, rfl, Nat.toDigits_ne_nil, digits_toDigits _, ?_, ?_⟩
  · intro c hc
    rcases List.mem_append.mp hc with h | h
    · rw [List.eq_of_mem_replicate h]; decide
    · exact digits_toDigits _ c h
  · have hlen : (Nat.toDigits 10 (k % 1000)).length ≤ 3 := by
      rw [Nat.length_toDigits_le_iff (by decide) (by decide)]
      have := Nat.mod_lt k (show 1000 > 0 by decide)
      omega
    rw [List.length_append, List.length_replicate, Nat.sub_add_cancel hlen, ofDigits_append, ofDigits_zeros,
      Nat.ofDigitChars_ten_toDigits, Nat.zero_mul, Nat.ofDigitChars_ten_toDigits]
    have h := Nat.div_add_mod k 1000
    have h' : (k : Rat) = 1000 * ((k / 1000 : Nat) : Rat) + ((k % 1000 : Nat) : Rat) := by exact_mod_cast h.symm
    rw [h']
    ring

theorem round_near (x : Rat) (hx : 0 ≤ x) : |((roundEven (x * 1000)).toNat : Rat) / 1000 - x| ≤ 1 / 2000 := by
  obtain ⟨h1, _⟩ := Proof.roundEven_rounds (x * 1000)
  have h0 : 0 ≤ roundEven (x * 1000) := by
    by_contra hlt
    have : roundEven (x * 1000) ≤ -1 := by omega
    have hq : ((roundEven (x * 1000) : Int) : Rat) ≤ -1 := by exact_mod_cast this
    have := (abs_le.mp h1).2
    linarith
  have e : ((roundEven (x * 1000)).toNat : Rat) = ((roundEven (x * 1000) : Int) : Rat) := by
    have : (((roundEven (x * 1000)).toNat : Int)) = roundEven (x * 1000) := Int.toNat_of_nonneg h0
    exact_mod_cast congrArg (Int.cast : Int → Rat) this
  rw [e]
  have h2 := abs_le.mp h1
  rw [abs_le]
  constructor <;> linarith [h2.1, h2.2]

/-- the text of a parameter stands for the nearest thousandth -/
theorem amount_writes (x : Rat) : Writes (amount x) x := by
  unfold amount fixed3
  split
  · rename_i hx
    obtain ⟨ip, f, e, h0, h1, h2, h3⟩ := thousandths_denotes (roundEven (-x * 1000)).toNat
    have h := denotes_strip true ip f h0 h1 h2
    rw [h3] at h
    rw [e]
    refine ⟨_, h, ⟨-((roundEven (-x * 1000)).toNat : Int), by simp only [if_true]; push_cast; ring⟩, ?_⟩
    have hr := abs_le.mp (round_near (-x) (by linarith))
    rw [abs_le]
    simp only [if_true]
    constructor <;> linarith [hr.1, hr.2]
  · rename_i hx
    obtain ⟨ip, f, e, h0, h1, h2, h3⟩ := thousandths_denotes (roundEven (x * 1000)).toNat
    have h := denotes_strip false ip f h0 h1 h2
    rw [h3] at h
    rw [e]
    refine ⟨_, h, ⟨((roundEven (x * 1000)).toNat : Int), by rw [if_neg (by decide), one_mul]; push_cast; rfl⟩, ?_⟩
    simpa using round_near x (by linarith)

/-! ### edits keep the steps of a schedule -/

theorem keys_cons (k : Str) (w : Val) (r : Obj) : (Obj.cons k w r).keys = k :: r.keys := by
  cases w <;> rfl

theorem distinct_put (o : Obj) (k : Str) (w : Val) (h : Distinct o) (hw : ∀ s, w = .obj s → Distinct s) :
    Distinct (o.put k w) := by
  have hc : ∀ r : Obj, k ∉ r.keys → Distinct r → Distinct (Obj.cons k w r) := by
    intro r h1 h2
    cases w with
    | str v => exact ⟨h1, h2⟩
    | obj s => exact ⟨h1, hw s rfl, h2⟩
  induction o with
  | nil => exact hc .nil (by simp [Obj.keys]) trivial
  | leaf k' v r ih =>
    rw [Obj.put]
    split
    · rename_i e; subst e; exact hc r h.1 h.2
    · rename_i e
      refine ⟨?_, ih h.2⟩
      rw [keys_put]
      split
      · exact h.1
      · rw [List.mem_append, not_or]
        exact ⟨h.1, by simpa using e⟩
  | node k' s r _ ih =>
    rw [Obj.put]
    split
    · rename_i e; subst e; exact hc r h.1 h.2.2
    · rename_i e
      refine ⟨?_, h.2.1, ih h.2.2⟩
      rw [keys_put]
      split
      · exact h.1
      · rw [List.mem_append, not_or]
        exact ⟨h.1, by simpa using e⟩

theorem distinct_setP (o o' : Obj) (p : List Str) (v : Str) (h : setP o p (.str v) = .ok o') (hd : Distinct o) :
    Distinct o' := by
  induction p generalizing o o' with
  | nil => cases h
  | cons k p ih =>
    cases p with
    | nil =>
      cases h
      exact distinct_put o k _ hd (fun s e => nomatch e)
    | cons k' p =>
      rw [setP] at h
      cases hf : o.find k with
      | none =>
        rw [hf] at h
        simp only [bind, Except.bind] at h
        cases hs : setP .nil (k' :: p) (.str v) with
        | error e => rw [hs] at h; cases h
        | ok s' =>
          rw [hs] at h; cases h
          refine distinct_put o k _ hd (fun s e => ?_)
          cases e
          exact ih .nil s' hs trivial
      | some w =>
        rw [hf] at h
        cases w with
        | str t => cases h
        | obj s =>
          simp only [bind, Except.bind] at h
          cases hs : setP s (k' :: p) (.str v) with
          | error e => rw [hs] at h; cases h
          | ok s' =>
            rw [hs] at h; cases h
            refine distinct_put o k _ hd (fun s e => ?_)
            cases e
            exact ih s s' hs (distinct_sub o k _ hd hf)

/-- the dictionary has the steps `ks` -/
def Keeps (o : Obj) (ks : List Str) : Prop := Distinct o ∧ ∃ s, o.find kSchedule = some (.obj s) ∧ s.keys = ks

theorem keeps_setP (o o' : Obj) (ks : List Str) (x k : Str) (p : List Str) (v : Str) (hk : Keeps o ks) (hx : x ∈ ks)
    (h : setP o (kSchedule :: x :: k :: p) (.str v) = .ok o') : Keeps o' ks := by
  refine ⟨distinct_setP o o' _ v h hk.1, ?_⟩
  obtain ⟨hd, s, hs, e⟩ := hk
  rw [setP, hs] at h
  simp only [bind, Except.bind] at h
  cases h1 : setP s (x :: k :: p) (.str v) with
  | error e => rw [h1] at h; cases h
  | ok s' =>
    rw [h1] at h; cases h
    refine ⟨s', by rw [find_put, if_pos rfl], ?_⟩
    rw [setP] at h1
    have : ∃ w, s' = s.put x w := by
      cases hf : s.find x with
      | none =>
        rw [hf] at h1
        simp only [bind, Except.bind] at h1
        cases h2 : setP .nil (k :: p) (.str v) with
        | error e => rw [h2] at h1; cases h1
        | ok t => rw [h2] at h1; cases h1; exact ⟨_, rfl⟩
      | some w =>
        rw [hf] at h1
        cases w with
        | str t => cases h1
        | obj t =>
          simp only [bind, Except.bind] at h1
          cases h2 : setP t (k :: p) (.str v) with
          | error e => rw [h2] at h1; cases h1
          | ok t => rw [h2] at h1; cases h1; exact ⟨_, rfl⟩
    obtain ⟨w, rfl⟩ := this
    rw [keys_put, if_pos (by rw [e]; exact hx), e]

theorem keeps_setSteps (label key v : Str) (first : Bool) (ks : List Str) (o o' : Obj) (xs : List Str)
    (hsub : ∀ x ∈ xs, x ∈ ks) (hk : Keeps o ks) (h : setSteps label key (.str v) first o xs = .ok o') : Keeps o' ks := by
  induction xs generalizing o with
  | nil => cases h; exact hk
  | cons x xs ih =>
    rw [setSteps] at h
    split at h
    · simp only [bind, Except.bind] at h
      cases hs : setP o [kSchedule, x, key] (.str v) with
      | error e => rw [hs] at h; cases h
      | ok o1 =>
        rw [hs] at h
        have h1 := keeps_setP o o1 ks x key [] v hk (hsub x (List.mem_cons_self ..)) hs
        simp only at h
        split at h
        · cases h; exact h1
        · exact ih o1 (fun y hy => hsub y (List.mem_cons_of_mem _ hy)) h1 h
    · exact ih o (fun y hy => hsub y (List.mem_cons_of_mem _ hy)) hk h

theorem keeps_setLimits (var sign value x : Str) (step : Obj) (ks : List Str) (hx : x ∈ ks) (o o' : Obj) (ls : List Str)
    (hk : Keeps o ks) (h : setLimits var (.str sign) (.str value) x step o ls = .ok o') : Keeps o' ks := by
  induction ls generalizing o with
  | nil => cases h; exact hk
  | cons l ls ih =>
    rw [setLimits] at h
    split at h
    · split at h
      · cases h
      · split at h
        · split at h
          · cases h
          · split at h
            · simp only [bind, Except.bind] at h
              cases h1 : setP o [kSchedule, x, l, kSign] (.str sign) with
              | error e => rw [h1] at h; cases h
              | ok o1 =>
                rw [h1] at h
                simp only at h
                cases h2 : setP o1 [kSchedule, x, l, kRight] (.str value) with
                | error e => rw [h2] at h; cases h
                | ok o2 =>
                  rw [h2] at h
                  exact ih o2 (keeps_setP o1 o2 ks x l _ value (keeps_setP o o1 ks x l _ sign hk hx h1) hx h2) h
            · exact ih o hk h
        · exact ih o hk h
    · cases h

theorem keeps_setLimitSteps (label var sign value : Str) (ks : List Str) (o o' : Obj) (xs : List Str)
    (hsub : ∀ x ∈ xs, x ∈ ks) (hk : Keeps o ks)
    (h : setLimitSteps label var (.str sign) (.str value) o xs = .ok o') : Keeps o' ks := by
  induction xs generalizing o with
  | nil => cases h; exact hk
  | cons x xs ih =>
    have hx := hsub x (List.mem_cons_self ..)
    have hsub' : ∀ y ∈ xs, y ∈ ks := fun y hy => hsub y (List.mem_cons_of_mem _ hy)
    rw [setLimitSteps] at h
    split at h
    · split at h
      · rename_i step _
        simp only [bind, Except.bind] at h
        cases h1 : limitKeys step with
        | error e => rw [h1] at h; cases h
        | ok ls =>
          rw [h1] at h
          simp only at h
          cases h2 : setLimits var (.str sign) (.str value) x step o ls with
          | error e => rw [h2] at h; cases h
          | ok o1 =>
            rw [h2] at h
            exact ih o1 hsub' (keeps_setLimits var sign value x step ks hx o o1 ls hk h2) h
      · cases h
    · exact ih o hsub' hk h

theorem stepKeys_keeps {o : Obj} {ks : List Str} (hk : Keeps o ks) : stepKeys o = .ok ks := by
  obtain ⟨_, s, hs, e⟩ := hk
  unfold stepKeys
  rw [hs, ← e]

theorem keeps_labelledSteps {label key v : Str} {first : Bool} {ks : List Str} {o o' : Obj} (hk : Keeps o ks)
    (h : setLabelledSteps o label key (.str v) first = .ok o') : Keeps o' ks := by
  unfold setLabelledSteps at h
  rw [stepKeys_keeps hk] at h
  exact keeps_setSteps label key v first ks o o' ks (fun _ h => h) hk h

theorem keeps_labelledLimits {label var sign value : Str} {ks : List Str} {o o' : Obj} (hk : Keeps o ks)
    (h : setLabelledLimits o label var (.str sign) (.str value) = .ok o') : Keeps o' ks := by
  unfold setLabelledLimits at h
  rw [stepKeys_keeps hk] at h
  exact keeps_setLimitSteps label var sign value ks o o' ks (fun _ h => h) hk h

theorem labelled_keeps {o : Obj} {ks : List Str} (hk : Keeps o ks) (label : Str) :
    labelled o label = ks.filter (fun x => getP o [kSchedule, x, kLabel] = some (.str label)) := by
  obtain ⟨_, s, hs, e⟩ := hk
  unfold labelled
  rw [show "Schedule".toList = kSchedule from rfl, hs, ← e]
  rfl

/-- the labels are untouched, so the labelled steps are the same -/
theorem labelled_same {o o' : Obj} {ks : List Str} (hk : Keeps o ks) (hk' : Keeps o' ks)
    (h : ∀ x, getP o' [kSchedule, x, kLabel] = getP o [kSchedule, x, kLabel]) (label : Str) :
    labelled o' label = labelled o label := by
  rw [labelled_keeps hk, labelled_keeps hk']
  apply List.filter_congr
  intro x _
  rw [h x]

end Beep.Proof.FastCharge
