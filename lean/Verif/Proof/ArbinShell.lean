import Verif.Proof.FastCharge
import Verif.Props.Dash
import Verif.Model.ArbinShell
import Verif.Spec.ArbinShell
/-
Lemmas for schedules made from a shell schedule.
-/
namespace Beep.Proof.ArbinShell
open Beep Beep.Dash Beep.Arbin Beep.Pandas Beep.Spec.Dash Beep.Spec.FastCharge Beep.Spec.ArbinShell
open Beep.Props.Dash Beep.Proof.FastCharge

/-! ### keys -/

theorem digit_iff (c : Char) : (decide ('0' ≤ c) && decide (c ≤ '9')) = true ↔ c.isDigit = true := by
  unfold Char.isDigit
  simp only [Bool.and_eq_true, decide_eq_true_eq, ge_iff_le]
  exact Iff.rfl

theorem startsNumbered_iff (p : String) (k : Str) : startsNumbered p.toList k = true ↔ Numbered p k := by
  unfold startsNumbered Numbered
  rw [Bool.and_eq_true, List.isPrefixOf_iff_prefix]
  constructor
  · rintro ⟨⟨r, rfl⟩, h⟩
    rw [List.drop_left] at h
    cases r with
    | nil => cases h
    | cons d r => exact ⟨d, r, (digit_iff d).mp h, rfl⟩
  · rintro ⟨d, r, hd, rfl⟩
    refine ⟨⟨_, rfl⟩, ?_⟩
    rw [List.drop_left]
    exact (digit_iff d).mpr hd

theorem step_not_safety (k : Str) : IsStep k → ¬ IsSafety k := by
  rintro ⟨d, r, _, rfl⟩ ⟨d', r', _, h⟩
  have h1 := congrArg List.head? h
  simp at h1

theorem nodup_keys : ∀ (o : Obj), Distinct o → o.keys.Nodup
  | .nil, _ => List.nodup_nil
  | .leaf _ _ r, h => List.nodup_cons.mpr ⟨h.1, nodup_keys r h.2⟩
  | .node _ _ r, h => List.nodup_cons.mpr ⟨h.1, nodup_keys r h.2.2⟩

theorem keys_del (o : Obj) (k : Str) : (o.del k).keys = o.keys.erase k := by
  induction o with
  | nil => rfl
  | leaf k' v r ih =>
    rw [Obj.del, Obj.keys, List.erase_cons]
    by_cases h : k' = k
    · rw [if_pos h, if_pos (by simpa using h)]
    · rw [if_neg h, if_neg (by simpa using h), Obj.keys, ih]
  | node k' v r _ ih =>
    rw [Obj.del, Obj.keys, List.erase_cons]
    by_cases h : k' = k
    · rw [if_pos h, if_pos (by simpa using h)]
    · rw [if_neg h, if_neg (by simpa using h), Obj.keys, ih]

theorem find_isSome (o : Obj) (k : Str) (h : k ∈ o.keys) : ∃ v, o.find k = some v := by
  cases e : o.find k with
  | none => exact absurd h ((find_none o k).mp e)
  | some v => exact ⟨v, rfl⟩

theorem find_del (o : Obj) (k x : Str) (h : o.keys.Nodup) :
    (o.del k).find x = if k = x then none else o.find x := by
  split
  · rename_i e
    subst e
    rw [find_none, keys_del]
    exact fun hm => (List.Nodup.mem_erase_iff h).mp hm |>.1 rfl
  · rename_i e
    exact find_del_ne o k x e

/-- the keys that the loop takes out -/
def gone (k : Str) : Bool := startsNumbered kStep k || startsNumbered kSafety k

/-- what the loop over the keys does -/
theorem sweep_ok (ks : List Str) (s : Obj) (saved : List (Str × Val)) (hs : s.keys.Nodup) (hn : ks.Nodup)
    (hk : ∀ k ∈ ks, k ∈ s.keys) :
    ∃ s' more, sweep ks s saved = .ok (s', saved ++ more) ∧
      s'.keys = s.keys.filter (fun k => !(decide (k ∈ ks) && gone k)) ∧
      (∀ x, s'.find x = if x ∈ ks ∧ gone x = true then none else s.find x) ∧
      more.map Prod.fst = ks.filter (startsNumbered kSafety) ∧
      (∀ e ∈ more, s.find e.1 = some e.2) := by
  induction ks generalizing s saved with
  | nil =>
    refine ⟨s, [], by rw [sweep, List.append_nil], ?_, ?_, rfl, ?_⟩
    · rw [List.filter_eq_self.mpr]; simp
    · intro x; simp
    · simp
  | cons k ks ih =>
    obtain ⟨hk1, hn1⟩ := List.nodup_cons.mp hn
    have hks : ∀ x ∈ ks, x ∈ s.keys := fun x hx => hk x (List.mem_cons_of_mem _ hx)
    have hd : (s.del k).keys.Nodup := by rw [keys_del]; exact hs.erase k
    have hkd : ∀ x ∈ ks, x ∈ (s.del k).keys := by
      intro x hx
      rw [keys_del, List.Nodup.mem_erase_iff hs]
      exact ⟨fun e => hk1 (e ▸ hx), hks x hx⟩
    have keysEq : gone k = true → (s.del k).keys.filter (fun x => !(decide (x ∈ ks) && gone x)) =
        s.keys.filter (fun x => !(decide (x ∈ k :: ks) && gone x)) := by
      intro hg
      rw [keys_del, List.Nodup.erase_eq_filter hs, List.filter_filter]
      apply List.filter_congr
      intro x _
      by_cases hx : x = k
      · subst hx; simp [hg]
      · simp [hx]
    have findEq : gone k = true → ∀ x, (if x ∈ ks ∧ gone x = true then none else (s.del k).find x) =
        if x ∈ k :: ks ∧ gone x = true then none else s.find x := by
      intro hg x
      rw [find_del s k x hs]
      by_cases hx : k = x
      · subst hx; simp [hg]
      · have : x ≠ k := fun e => hx e.symm
        simp [this, hx]
    rw [sweep]
    by_cases h1 : startsNumbered kStep k = true
    · rw [if_pos h1]
      have hg : gone k = true := by simp [gone, h1]
      obtain ⟨s', more, e1, e2, e3, e4, e5⟩ := ih (s.del k) saved hd hn1 hkd
      refine ⟨s', more, e1, e2.trans (keysEq hg), fun x => (e3 x).trans (findEq hg x), ?_, ?_⟩
      · have : startsNumbered kSafety k ≠ true := fun h2 =>
          step_not_safety k ((startsNumbered_iff "Step" k).mp h1) ((startsNumbered_iff "UserDefineSafety" k).mp h2)
        rw [e4, List.filter_cons_of_neg this]
      · intro e he
        have hm : e.1 ∈ ks := List.mem_of_mem_filter (e4 ▸ List.mem_map_of_mem (f := Prod.fst) he)
        have := e5 e he
        rwa [find_del_ne _ _ _ (fun c : k = e.1 => hk1 (by rw [c]; exact hm))] at this
    · rw [if_neg h1]
      by_cases h2 : startsNumbered kSafety k = true
      · rw [if_pos h2]
        have hg : gone k = true := by simp [gone, h2]
        obtain ⟨v, hv⟩ := find_isSome s k (hk k List.mem_cons_self)
        rw [hv]
        obtain ⟨s', more, e1, e2, e3, e4, e5⟩ := ih (s.del k) (saved ++ [(k, v)]) hd hn1 hkd
        refine ⟨s', (k, v) :: more, ?_, e2.trans (keysEq hg), fun x => (e3 x).trans (findEq hg x), ?_, ?_⟩
        · simpa using e1
        · rw [List.filter_cons_of_pos h2, List.map_cons, e4]
        · intro e he
          rcases List.mem_cons.mp he with rfl | he
          · exact hv
          · have hm : e.1 ∈ ks := List.mem_of_mem_filter (e4 ▸ List.mem_map_of_mem (f := Prod.fst) he)
            have := e5 e he
            rwa [find_del_ne _ _ _ (fun c : k = e.1 => hk1 (by rw [c]; exact hm))] at this
      · rw [if_neg h2]
        have hg : gone k = false := by simp [gone, h1, h2]
        obtain ⟨s', more, e1, e2, e3, e4, e5⟩ := ih s saved hs hn1 hks
        refine ⟨s', more, e1, ?_, ?_, ?_, e5⟩
        · rw [e2]
          apply List.filter_congr
          intro x _
          by_cases hx : x = k
          · subst hx; simp [hg]
          · simp [hx]
        · intro x
          rw [e3]
          by_cases hx : x = k
          · subst hx; simp [hg]
          · simp [hx]
        · rw [e4, List.filter_cons_of_neg h2]

/-! ### writing entries -/

/-- the section after writing the entries -/
def putAll (s : Obj) (es : List (Str × Val)) : Obj := es.foldl (fun s e => s.put e.1 e.2) s

theorem setEntries_ok (o s : Obj) (es : List (Str × Val)) (h : o.find kSchedule = some (.obj s)) :
    ∃ o', setEntries o es = .ok o' ∧ o'.find kSchedule = some (.obj (putAll s es)) ∧ o'.keys = o.keys ∧
      ∀ k, k ≠ kSchedule → o'.find k = o.find k := by
  induction es generalizing o s with
  | nil => exact ⟨o, rfl, h, rfl, fun _ _ => rfl⟩
  | cons e es ih =>
    obtain ⟨k, w⟩ := e
    have hs : setP o [kSchedule, k] w = .ok (o.put kSchedule (.obj (s.put k w))) := by
      rw [setP, h]; rfl
    have hm : kSchedule ∈ o.keys := by
      by_contra hc
      rw [(find_none o kSchedule).mpr hc] at h
      cases h
    obtain ⟨o', e1, e2, e3, e4⟩ := ih (o.put kSchedule (.obj (s.put k w))) (s.put k w)
      (by rw [find_put, if_pos rfl])
    refine ⟨o', ?_, e2, ?_, ?_⟩
    · rw [setEntries, hs]; exact e1
    · rw [e3, keys_put, if_pos hm]
    · intro x hx
      rw [e4 x hx, find_put, if_neg (fun c => hx c.symm)]

theorem putAll_find_not (s : Obj) (es : List (Str × Val)) (x : Str) (h : x ∉ es.map Prod.fst) :
    (putAll s es).find x = s.find x := by
  induction es generalizing s with
  | nil => rfl
  | cons e es ih =>
    rw [List.map_cons, List.mem_cons, not_or] at h
    have := ih (s.put e.1 e.2) h.2
    rw [putAll, List.foldl_cons]
    rw [putAll] at this
    rw [this, find_put, if_neg (fun c => h.1 c.symm)]

theorem putAll_find (s : Obj) (es : List (Str × Val)) (hn : (es.map Prod.fst).Nodup) (e : Str × Val) (h : e ∈ es) :
    (putAll s es).find e.1 = some e.2 := by
  induction es generalizing s with
  | nil => cases h
  | cons a es ih =>
    rw [List.map_cons, List.nodup_cons] at hn
    rw [putAll, List.foldl_cons]
    rcases List.mem_cons.mp h with rfl | h
    · have := putAll_find_not (s.put e.1 e.2) es e.1 hn.1
      rw [putAll] at this
      rw [this, find_put, if_pos rfl]
    · exact ih (s.put a.1 a.2) hn.2 h

theorem putAll_mem (s : Obj) (es : List (Str × Val)) (x : Str) :
    x ∈ (putAll s es).keys ↔ x ∈ s.keys ∨ x ∈ es.map Prod.fst := by
  induction es generalizing s with
  | nil => simp [putAll]
  | cons a es ih =>
    have := ih (s.put a.1 a.2)
    rw [putAll] at this ⊢
    rw [List.foldl_cons, this, keys_put, List.map_cons, List.mem_cons]
    split
    · rename_i hm
      constructor
      · rintro (h | h)
        · exact .inl h
        · exact .inr (.inr h)
      · rintro (h | h | h)
        · exact .inl h
        · subst h; exact .inl hm
        · exact .inr h
    · rw [List.mem_append, List.mem_singleton, or_assoc]

/-- new entries go to the end, in order -/
theorem putAll_keys (s : Obj) (es : List (Str × Val)) (hn : (es.map Prod.fst).Nodup)
    (hd : ∀ x ∈ es.map Prod.fst, x ∉ s.keys) : (putAll s es).keys = s.keys ++ es.map Prod.fst := by
  induction es generalizing s with
  | nil => simp [putAll]
  | cons a es ih =>
    rw [List.map_cons, List.nodup_cons] at hn
    have h1 : (s.put a.1 a.2).keys = s.keys ++ [a.1] := by
      rw [keys_put, if_neg (hd a.1 (by simp))]
    have := ih (s.put a.1 a.2) hn.2 (by
      intro x hx
      rw [h1, List.mem_append, List.mem_singleton, not_or]
      exact ⟨hd x (by rw [List.map_cons]; exact List.mem_cons_of_mem _ hx), fun c => hn.1 (c ▸ hx)⟩)
    rw [putAll] at this ⊢
    rw [List.foldl_cons, this, h1, List.map_cons, List.append_assoc]
    rfl

theorem putAll_nodup (s : Obj) (es : List (Str × Val)) (h : s.keys.Nodup) : (putAll s es).keys.Nodup := by
  induction es generalizing s with
  | nil => exact h
  | cons a es ih =>
    rw [putAll, List.foldl_cons]
    apply ih
    rw [keys_put]
    split
    · exact h
    · rename_i hm
      rw [List.nodup_append]
      refine ⟨h, by simp, ?_⟩
      intro x hx y hy
      rw [List.mem_singleton] at hy
      subst hy
      exact fun c => hm (c ▸ hx)

/-! ### steps -/

theorem stepKey_eq (i : Nat) : stepKey i = StepNo i := by
  unfold stepKey StepNo
  have h : (toString i : String).toList = Nat.toDigits 10 i := String.toList_ofList
  rw [h]
  rfl

theorem numbered_keys (i : Nat) (steps : List Obj) :
    (numbered i steps).map Prod.fst = (List.range' i steps.length).map StepNo := by
  induction steps generalizing i with
  | nil => rfl
  | cons s ss ih => rw [numbered, List.map_cons, ih, List.length_cons, List.range'_succ, List.map_cons, stepKey_eq]

theorem numbered_mem (i j : Nat) (steps : List Obj) (h : j < steps.length) :
    (StepNo (i + j), Val.obj steps[j]) ∈ numbered i steps := by
  induction steps generalizing i j with
  | nil => cases h
  | cons s ss ih =>
    rw [numbered, stepKey_eq]
    cases j with
    | zero => simp
    | succ j =>
      have := ih (i + 1) j (by simpa using h)
      rw [Nat.add_right_comm] at this
      exact List.mem_cons_of_mem _ (by simpa [Nat.add_assoc] using this)

theorem stepNo_inj : Function.Injective StepNo := by
  intro a b h
  rw [← stepKey_eq, ← stepKey_eq] at h
  have h1 := List.append_cancel_left h
  have := congrArg (fun l => Nat.ofDigitChars 10 l 0) h1
  simpa [Nat.ofDigitChars_ten_toDigits] using this

theorem stepNo_isStep (i : Nat) : IsStep (StepNo i) := by
  rw [← stepKey_eq]
  unfold stepKey
  cases e : Nat.toDigits 10 i with
  | nil => exact absurd e Nat.toDigits_ne_nil
  | cons d r =>
    exact ⟨d, r, digits_toDigits i d (by rw [e]; exact List.mem_cons_self), rfl⟩

theorem numbered_nodup (i : Nat) (steps : List Obj) : ((numbered i steps).map Prod.fst).Nodup := by
  rw [numbered_keys]
  exact (List.nodup_range' ..).map stepNo_inj

/-! ### numbers -/

theorem millionths_denotes (k : Nat) : ∃ ip f : Str, millionths k = ip ++ '.' :: f ∧ ip ≠ [] ∧ Digits ip ∧ Digits f ∧
    (Nat.ofDigitChars 10 ip 0 : Rat) + (Nat.ofDigitChars 10 f 0 : Rat) / 10 ^ f.length = (k : Rat) / 1000000 := by
  refine ⟨Nat.toDigits 10 (k / 1000000), _, rfl, Nat.toDigits_ne_nil, digits_toDigits _, ?_, ?_⟩
  · intro c hc
    rcases List.mem_append.mp hc with h | h
    · rw [List.eq_of_mem_replicate h]; decide
    · exact digits_toDigits _ c h
  · have hlen : (Nat.toDigits 10 (k % 1000000)).length ≤ 6 := by
      rw [Nat.length_toDigits_le_iff (by decide) (by decide)]
      have := Nat.mod_lt k (show 1000000 > 0 by decide)
      omega
    rw [List.length_append, List.length_replicate, Nat.sub_add_cancel hlen, ofDigits_append, ofDigits_zeros,
      Nat.ofDigitChars_ten_toDigits, Nat.zero_mul, Nat.ofDigitChars_ten_toDigits]
    have h := Nat.div_add_mod k 1000000
    have h' : (k : Rat) = 1000000 * ((k / 1000000 : Nat) : Rat) + ((k % 1000000 : Nat) : Rat) := by exact_mod_cast h.symm
    rw [h']
    ring

theorem round_near6 (x : Rat) (hx : 0 ≤ x) : |((roundEven (x * 1000000)).toNat : Rat) / 1000000 - x| ≤ 1 / 2000000 := by
  obtain ⟨h1, _⟩ := Proof.roundEven_rounds (x * 1000000)
  have h0 : 0 ≤ roundEven (x * 1000000) := by
    by_contra hlt
    have : roundEven (x * 1000000) ≤ -1 := by omega
    have hq : ((roundEven (x * 1000000) : Int) : Rat) ≤ -1 := by exact_mod_cast this
    have := (abs_le.mp h1).2
    linarith
  have e : ((roundEven (x * 1000000)).toNat : Rat) = ((roundEven (x * 1000000) : Int) : Rat) := by
    have : (((roundEven (x * 1000000)).toNat : Int)) = roundEven (x * 1000000) := Int.toNat_of_nonneg h0
    exact_mod_cast congrArg (Int.cast : Int → Rat) this
  rw [e]
  have h2 := abs_le.mp h1
  rw [abs_le]
  constructor <;> linarith [h2.1, h2.2]

theorem fixed6_writes (x : Rat) : Writes6 (fixed6 x) x := by
  unfold fixed6
  split
  · rename_i hx
    obtain ⟨ip, f, e, h0, h1, h2, h3⟩ := millionths_denotes (roundEven (-x * 1000000)).toNat
    rw [e]
    refine ⟨_, ⟨true, ip, f, by simp, h0, h1, h2, rfl⟩, ?_, ?_⟩
    · rw [h3]
      exact ⟨-((roundEven (-x * 1000000)).toNat : Int), by simp only [if_true]; push_cast; ring⟩
    · rw [h3]
      have hr := abs_le.mp (round_near6 (-x) (by linarith))
      rw [abs_le]
      simp only [if_true]
      constructor <;> linarith [hr.1, hr.2]
  · rename_i hx
    obtain ⟨ip, f, e, h0, h1, h2, h3⟩ := millionths_denotes (roundEven (x * 1000000)).toNat
    rw [e]
    refine ⟨_, ⟨false, ip, f, by simp, h0, h1, h2, rfl⟩, ?_, ?_⟩
    · rw [h3]
      exact ⟨((roundEven (x * 1000000)).toNat : Int), by rw [if_neg (by decide), one_mul]; push_cast; rfl⟩
    · rw [h3]
      simpa using round_near6 x (by linarith)

theorem scope_range (r : Rat × Rat) : Range (scope r) r := ⟨_, _, rfl, fixed6_writes _, fixed6_writes _⟩

/-! ### the whole -/

theorem header_keys (n : Nat) (v t c : Rat × Rat) :
    (header n v t c).map Prod.fst = settings ++ if t = (-100, 100) then [] else [enable] := by
  unfold header
  split <;> rfl

theorem header_nodup (n : Nat) (v t c : Rat × Rat) : ((header n v t c).map Prod.fst).Nodup := by
  rw [header_keys]
  split <;> decide

theorem not_numbered_m (p : String) (r : Str) (h : p.toList.head? ≠ some 'm') (h0 : p.toList ≠ []) : ¬ Numbered p ('m' :: r) := by
  rintro ⟨d, r', _, e⟩
  cases hp : p.toList with
  | nil => exact h0 hp
  | cons a b =>
    rw [hp] at e h
    injection e with e1 _
    exact h (by rw [← e1]; rfl)

theorem settings_m (k : Str) (h : k ∈ settings ++ [enable]) : ∃ r, k = 'm' :: r := by
  have hall : ∀ k ∈ settings ++ [enable], k.head? = some 'm' := by decide +kernel
  have := hall k h
  cases k with
  | nil => cases this
  | cons a r => exact ⟨r, by injection this with e; rw [e]⟩

theorem header_not (n : Nat) (v t c : Rat × Rat) (k : Str) (h : k ∈ (header n v t c).map Prod.fst) :
    ¬ IsStep k ∧ ¬ IsSafety k := by
  rw [header_keys] at h
  have : k ∈ settings ++ [enable] := by
    rcases List.mem_append.mp h with h | h
    · exact List.mem_append_left _ h
    · split at h
      · cases h
      · exact List.mem_append_right _ h
  obtain ⟨r, rfl⟩ := settings_m k this
  exact ⟨not_numbered_m _ r (by decide) (by decide), not_numbered_m _ r (by decide) (by decide)⟩

/-- the section of the result, built from the section of the shell -/
structure Built (s : Obj) (steps : List Obj) (v t c : Rat × Rat) (u : Obj) : Prop where
  build : ∃ s' saved, u = putAll (putAll (putAll s' (header steps.length v t c)) (numbered 0 steps)) saved ∧
    s'.keys = s.keys.filter (fun k => !gone k) ∧
    (∀ x, s'.find x = if gone x = true then none else s.find x) ∧
    saved.map Prod.fst = s.keys.filter (startsNumbered kSafety) ∧
    (∀ e ∈ saved, s.find e.1 = some e.2)

theorem create_ok (shell s : Obj) (steps : List Obj) (v t c : Rat × Rat) (hd : Distinct shell)
    (h : shell.find kSchedule = some (.obj s)) :
    ∃ out u, createSchedule shell steps v t c = .ok out ∧ out.find kSchedule = some (.obj u) ∧
      Built s steps v t c u ∧ out.keys = shell.keys ∧ ∀ k, k ≠ kSchedule → out.find k = shell.find k := by
  have hn := nodup_keys s (distinct_sub shell kSchedule s hd h)
  obtain ⟨s', saved, e1, e2, e3, e4, e5⟩ := sweep_ok s.keys s [] hn hn (fun _ h => h)
  rw [List.nil_append] at e1
  have hm : kSchedule ∈ shell.keys := by
    by_contra hc
    rw [(find_none shell kSchedule).mpr hc] at h
    cases h
  obtain ⟨o1, a1, a2, a3, a4⟩ := setEntries_ok (shell.put kSchedule (.obj s')) s' (header steps.length v t c)
    (by rw [find_put, if_pos rfl])
  obtain ⟨o2, b1, b2, b3, b4⟩ := setEntries_ok o1 _ (numbered 0 steps) a2
  obtain ⟨o3, c1, c2, c3, c4⟩ := setEntries_ok o2 _ saved b2
  refine ⟨o3, _, ?_, c2, ⟨⟨s', saved, rfl, ?_, ?_, e4, e5⟩⟩, ?_, ?_⟩
  · unfold createSchedule
    rw [h]
    simp only [e1, bind, Except.bind, a1, b1, c1]
  · rw [e2]
    apply List.filter_congr
    intro x hx
    simp [hx]
  · intro x
    rw [e3]
    by_cases hx : x ∈ s.keys
    · simp [hx]
    · simp [hx, (find_none s x).mpr hx]
  · rw [c3, b3, a3, keys_put, if_pos hm]
  · intro k hk
    rw [c4 k hk, b4 k hk, a4 k hk, find_put, if_neg (fun e => hk e.symm)]

theorem gone_iff (k : Str) : gone k = true ↔ IsStep k ∨ IsSafety k := by
  unfold gone
  rw [Bool.or_eq_true]
  exact or_congr (startsNumbered_iff "Step" k) (startsNumbered_iff "UserDefineSafety" k)

end Beep.Proof.ArbinShell
