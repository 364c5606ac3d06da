import Verif.Proof.Waveform
/-
Theorems about waveform files: C38, C39.
-/
namespace Beep.Props.Waveform
open Beep Pandas Waveform Spec.Waveform Proof.Waveform

/-! ### The file reproduces the waveform (C38) -/

/-- C38: expanding the lines gives back the scaled waveform second by second, to five decimals, with
charge exactly where it is positive -/
theorem C38_reproduces (cfg : Config) (kind : Kind) (xs : List Rat) (m : Rat) (hm : Peak xs m)
    (h0 : m ≠ 0) :
    ∃ ls, generate cfg kind xs = .ok ls ∧
      List.Forall₂ (fun x o => Prescribes (x / m * cfg.valueScale) o) xs (expand ls) := by
  refine ⟨_, by unfold generate; rw [scaled_ok hm h0]; rfl, ?_⟩
  rw [expand_groups, List.map_map, List.map_map]
  apply Proof.MaccorProcedure.forall₂_map_right
  intro x
  simp only [Function.comp_def, sample]
  have hb := round5_bounds (absR (x / m * cfg.valueScale))
  refine ⟨?_, _, rfl, hb.1, hb.2⟩
  by_cases hy : x / m * cfg.valueScale ≤ 0
  · right; simp [hy]
  · left; simp only [hy, if_false, true_and]; exact not_le.mp hy

/-- C38: no line is empty, so the durations add up to the length of the waveform -/
theorem C38_durations (cfg : Config) (kind : Kind) (xs : List Rat) (m : Rat) (hm : Peak xs m)
    (h0 : m ≠ 0) (ls : List Line) (hg : generate cfg kind xs = .ok ls) :
    (∀ l ∈ ls, 0 < l.duration) ∧ (ls.map Line.duration).sum = xs.length := by
  unfold generate at hg
  rw [scaled_ok hm h0] at hg
  cases hg
  constructor
  · intro l hl
    rw [groups_eq] at hl
    obtain ⟨g', hg', rfl⟩ := List.mem_map.mp hl
    obtain ⟨g, hgg, rfl⟩ := List.mem_map.mp hg'
    obtain ⟨k, y, hne, hy, -⟩ := mem_rowGroups hgg
    rw [(lineOf_sample cfg kind hne hy).2]
    exact List.length_pos_of_ne_nil hne
  · have h := congrArg List.length (expand_groups cfg kind (xs.map (fun x => x / m * cfg.valueScale)))
    simp only [expand, List.length_flatMap, List.length_replicate, List.length_map] at h
    rw [← h]

/-- C38: the largest magnitude written is the requested scale (to five decimals) -/
theorem C38_largest (cfg : Config) (kind : Kind) (xs : List Rat) (m : Rat) (hm : Peak xs m)
    (h0 : m ≠ 0) (hs : 0 ≤ cfg.valueScale) (ls : List Line) (hg : generate cfg kind xs = .ok ls) :
    (∃ o ∈ expand ls, o.2 = some (round5 cfg.valueScale)) ∧
    ∀ o ∈ expand ls, ∃ v, o.2 = some v ∧ v ≤ round5 cfg.valueScale := by
  unfold generate at hg
  rw [scaled_ok hm h0] at hg
  cases hg
  have hmp : 0 < m := by
    obtain ⟨⟨x, -, he⟩, -⟩ := hm
    have := absR_nonneg x
    rw [he] at this
    exact lt_of_le_of_ne this (Ne.symm h0)
  have habs : ∀ x : Rat, absR (x / m * cfg.valueScale) = absR x / m * cfg.valueScale := by
    intro x
    have hq : 0 < 1 / m := by positivity
    unfold absR
    by_cases hx : x < 0
    · rw [if_pos hx]
      by_cases hz : x / m * cfg.valueScale < 0
      · rw [if_pos hz]; ring
      · rw [if_neg hz]
        have h1 : x / m < 0 := div_neg_of_neg_of_pos hx hmp
        have h2 : x / m * cfg.valueScale ≤ 0 := mul_nonpos_of_nonpos_of_nonneg h1.le hs
        have h3 : x / m * cfg.valueScale = 0 := le_antisymm h2 (not_lt.mp hz)
        have h4 : -x / m * cfg.valueScale = -(x / m * cfg.valueScale) := by ring
        rw [h4, h3]; simp
    · rw [if_neg hx]
      have h1 : 0 ≤ x / m := div_nonneg (not_lt.mp hx) hmp.le
      rw [if_neg (not_lt.mpr (mul_nonneg h1 hs))]
  rw [expand_groups, List.map_map, List.map_map]
  constructor
  · obtain ⟨⟨x, hx, he⟩, -⟩ := hm
    refine ⟨_, List.mem_map.mpr ⟨x, hx, rfl⟩, ?_⟩
    simp only [Function.comp_def, sample, habs, he]
    rw [div_self h0, one_mul]
  · intro o ho
    obtain ⟨x, hx, rfl⟩ := List.mem_map.mp ho
    refine ⟨_, rfl, round5_mono ?_⟩
    rw [habs]
    have : absR x / m ≤ 1 := by
      rw [div_le_one hmp]
      exact hm.2 x hx
    calc absR x / m * cfg.valueScale ≤ 1 * cfg.valueScale := mul_le_mul_of_nonneg_right this hs
      _ = _ := one_mul _

/-- C38: consecutive lines differ whenever different values of the scaled waveform are more than
one unit of the fifth decimal apart.  Missing: values closer than that, which are written the same,
see `C38_lines_differ_violated`. -/
theorem C38_lines_differ_partial (cfg : Config) (kind : Kind) (xs : List Rat) (m : Rat)
    (hm : Peak xs m) (h0 : m ≠ 0) (ls : List Line) (hg : generate cfg kind xs = .ok ls)
    (hsep : ∀ x ∈ xs, ∀ y ∈ xs, x / m * cfg.valueScale < y / m * cfg.valueScale →
      x / m * cfg.valueScale + 1 / 100000 < y / m * cfg.valueScale) :
    Alternates (ls.map (fun l => (l.state, l.value))) := by
  unfold generate at hg
  rw [scaled_ok hm h0] at hg
  cases hg
  intro i a b ha hb
  rw [List.getElem?_map, Option.map_eq_some_iff] at ha hb
  obtain ⟨l, hl, rfl⟩ := ha
  obtain ⟨l', hl', rfl⟩ := hb
  rw [List.getElem?_map, Option.map_eq_some_iff] at hl hl'
  obtain ⟨g, hgi, rfl⟩ := hl
  obtain ⟨g', hgi', rfl⟩ := hl'
  rw [groups_eq, List.getElem?_map, Option.map_eq_some_iff] at hgi hgi'
  obtain ⟨r, hri, rfl⟩ := hgi
  obtain ⟨r', hri', rfl⟩ := hgi'
  have hch := chain_rowGroups (xs.map (fun x => x / m * cfg.valueScale))
  rw [List.isChain_iff_getElem] at hch
  rw [List.getElem?_eq_some_iff] at hri hri'
  obtain ⟨hi, rfl⟩ := hri
  obtain ⟨hi', rfl⟩ := hri'
  obtain ⟨k, y, hne, hy, hymem⟩ := mem_rowGroups (List.getElem_mem hi)
  obtain ⟨k', y', hne', hy', hymem'⟩ := mem_rowGroups (List.getElem_mem hi')
  rw [(lineOf_sample cfg kind hne hy).1, (lineOf_sample cfg kind hne' hy').1]
  have hdiff := hch i hi' _ (List.head_mem hne) _ (List.head_mem hne')
  rw [hy _ (List.head_mem hne), hy' _ (List.head_mem hne')] at hdiff
  have hyy : y ≠ y' := fun e => hdiff (by rw [e])
  obtain ⟨x, hx, hxe⟩ := List.mem_map.mp hymem
  obtain ⟨x', hx', hxe'⟩ := List.mem_map.mp hymem'
  have hsep' : (y < y' → y + 1 / 100000 < y') ∧ (y' < y → y' + 1 / 100000 < y) := by
    constructor
    · intro h
      have := hsep x hx x' hx'
      rw [hxe, hxe'] at this
      exact this h
    · intro h
      have := hsep x' hx' x hx
      rw [hxe, hxe'] at this
      exact this h
  have b1 := round5_bounds (absR y)
  have b2 := round5_bounds (absR y')
  simp only [sample, ne_eq, Prod.mk.injEq, Option.some.injEq, not_and]
  intro hst hv
  rw [hv] at b1
  generalize round5 (absR y') = w at b1 b2
  have hCD : "D".toList ≠ "C".toList := by decide
  by_cases h1 : y ≤ 0 <;> by_cases h2 : y' ≤ 0
  · have e1 : absR y = -y := by unfold absR; split <;> linarith
    have e2 : absR y' = -y' := by unfold absR; split <;> linarith
    rw [e1] at b1; rw [e2] at b2
    rcases lt_or_gt_of_ne hyy with h | h
    · have := hsep'.1 h; linarith [b1.1, b1.2, b2.1, b2.2]
    · have := hsep'.2 h; linarith [b1.1, b1.2, b2.1, b2.2]
  · simp only [h1, h2, if_true, if_false] at hst
    exact hCD hst
  · simp only [h1, h2, if_true, if_false] at hst
    exact hCD hst.symm
  · have e1 : absR y = y := by unfold absR; split <;> linarith
    have e2 : absR y' = y' := by unfold absR; split <;> linarith
    rw [e1] at b1; rw [e2] at b2
    rcases lt_or_gt_of_ne hyy with h | h
    · have := hsep'.1 h; linarith [b1.1, b1.2, b2.1, b2.2]
    · have := hsep'.2 h; linarith [b1.1, b1.2, b2.1, b2.2]

/-- C38 fails for close values: two consecutive lines can be the same -/
theorem C38_lines_differ_violated :
    ∃ (xs : List Rat) (ls : List Line), generate defaultConfig .power xs = .ok ls ∧
      ¬ Alternates (ls.map (fun l => (l.state, l.value))) := by
  obtain ⟨ls, hls⟩ : ∃ ls, generate defaultConfig .power [1, 1 / 1000000, 2 / 1000000] = .ok ls :=
    ⟨_, rfl⟩
  refine ⟨_, ls, hls, ?_⟩
  intro h
  have key : ((generate defaultConfig .power [1, 1 / 1000000, 2 / 1000000]).map
      (List.map (fun l => (l.state, l.value)))).toOption =
      some [("C".toList, some 1), ("C".toList, some 0), ("C".toList, some 0)] := by decide +kernel
  rw [hls] at key
  have key' : ls.map (fun l => (l.state, l.value)) =
      [("C".toList, some 1), ("C".toList, some 0), ("C".toList, some 0)] := Option.some.inj key
  rw [key'] at h
  exact h 1 _ _ rfl rfl rfl

/-- C38 fails for a waveform of zeros: it is written as one line "charge" without a value -/
theorem C38_zeros_violated (cfg : Config) (kind : Kind) (n : Nat) :
    ∃ l, generate cfg kind (List.replicate (n + 1) 0) = .ok [l] ∧ l.state = "C".toList ∧
      l.value = none := by
  have hmax : maxN ((List.replicate (n + 1) (0 : Rat)).map (fun x => some (absR x))) = some 0 := by
    have hne : maxN ((List.replicate (n + 1) (0 : Rat)).map (fun x => some (absR x))) ≠ none := by
      rw [ne_eq, maxN_none]
      intro h
      exact h ⟨0, by simp [absR]⟩
    obtain ⟨m, hm⟩ := Option.ne_none_iff_exists'.mp hne
    rw [hm]
    have := (maxN_some _ _ hm).1
    simp [absR] at this
    rw [this]
  have hys : scaled cfg.valueScale (List.replicate (n + 1) 0) = .ok (List.replicate (n + 1) none) := by
    unfold scaled
    rw [hmax]
    simp
  have hdiff : ∀ k : Nat, diffFrom none (List.replicate k none) = List.replicate k none := by
    intro k
    induction k with
    | zero => rfl
    | succ k ih => rw [List.replicate_succ, diffFrom, ih]; rfl
  have hcum : ∀ k : Nat, cumsum 0 (List.replicate k false) = List.replicate k 0 := by
    intro k
    induction k with
    | zero => rfl
    | succ k ih =>
      simp only [List.replicate_succ, cumsum, Bool.false_eq_true, if_false]
      rw [ih]
  have hcount : counter (List.replicate (n + 1) none) = List.replicate (n + 1) 0 := by
    unfold counter
    rw [List.replicate_succ, diff, hdiff]
    rw [show (none : Option Rat) :: List.replicate n none = List.replicate (n + 1) none from rfl,
      List.map_replicate]
    exact hcum (n + 1)
  have huniq : groupKeys (List.replicate (n + 1) (0 : Int)) = [0] := by
    have h1 := sorted_groupKeys (List.replicate (n + 1) (0 : Int))
    have h2 : ∀ k, k ∈ groupKeys (List.replicate (n + 1) (0 : Int)) ↔ k = 0 := by
      intro k; rw [mem_groupKeys]; simp
    generalize groupKeys (List.replicate (n + 1) (0 : Int)) = l at h1 h2
    cases l with
    | nil => exact absurd ((h2 0).mpr rfl) (by simp)
    | cons a l =>
      have ha := (h2 a).mp List.mem_cons_self
      cases l with
      | nil => rw [ha]
      | cons b l =>
        have hb := (h2 b).mp (List.mem_cons_of_mem _ List.mem_cons_self)
        rw [List.pairwise_cons] at h1
        have := h1.1 b List.mem_cons_self
        omega
  have hgr : groups (List.replicate (n + 1) none) = [List.replicate (n + 1) none] := by
    unfold groups
    rw [hcount, huniq, List.zip_replicate']
    simp
  have hfirst : (List.replicate (n + 1) (none : Option Rat)).findSome? id = none := by
    rw [List.findSome?_eq_none_iff]
    intro x hx
    rw [List.eq_of_mem_replicate hx]
    rfl
  refine ⟨lineOf cfg kind (List.replicate (n + 1) none), ?_, ?_, ?_⟩
  · unfold generate
    rw [hys]
    simp only [bind, Except.bind, hgr, List.map_cons, List.map_nil]
  · unfold lineOf
    rw [hfirst]
    rfl
  · unfold lineOf
    rw [hfirst]
    rfl

/-- C38: charge lines carry the charge limits of the configuration and discharge lines the discharge
limits; a zero of a power controlled waveform is written as zero current -/
theorem C38_columns (cfg : Config) (kind : Kind) (xs : List Rat) (ls : List Line)
    (hg : generate cfg kind xs = .ok ls) : ∀ l ∈ ls,
    (l.state = "C".toList ∧ l.limitMode = cfg.chargeLimitMode ∧ l.limitValue = cfg.chargeLimitValue ∧
        l.endMode = cfg.chargeEndMode ∧ l.operation = cfg.chargeEndOperation ∧
        l.endModeValue = cfg.chargeEndModeValue ∨
      l.state = "D".toList ∧ l.limitMode = cfg.dischargeLimitMode ∧
        l.limitValue = cfg.dischargeLimitValue ∧ l.endMode = cfg.dischargeEndMode ∧
        l.operation = cfg.dischargeEndOperation ∧ l.endModeValue = cfg.dischargeEndModeValue) ∧
    l.reportMode = cfg.reportMode ∧ l.reportValue = cfg.reportValue ∧ l.range = cfg.range ∧
    (l.controlMode = cfg.controlMode ∨
      l.controlMode = "I".toList ∧ kind = .power ∧ l.value = some 0 ∧ l.state = "D".toList) := by
  unfold generate at hg
  simp only [bind, Except.bind] at hg
  split at hg
  · cases hg
  · cases hg
    intro l hl
    obtain ⟨g, -, rfl⟩ := List.mem_map.mp hl
    unfold lineOf
    generalize g.findSome? id = first
    have hz : round5 (absR 0) = 0 := by decide +kernel
    cases first with
    | none => simp
    | some y =>
      by_cases h0 : y = 0
      · subst h0
        by_cases hk : kind = .power ∧ cfg.controlMode = "P".toList
        · obtain ⟨rfl, hc⟩ := hk
          simp [hc, hz]
        · have hk' : kind = .power → ¬ cfg.controlMode = ['P'] := fun h h' => hk ⟨h, h'⟩
          simp
          left
          intro h h'
          exact absurd h' (hk' h)
      · by_cases hy : y ≤ 0 <;> simp [hy, h0]

/-- the limits and ends of the lines when no configuration is given, in a process that has not
generated driving waveforms -/
theorem C38_defaults (history : List Call) (h : ∀ c ∈ history, ∀ d, c ≠ .driving d) (kind : Kind)
    (xs : List Rat) (ls : List Line)
    (hg : (step (after defaultConfig history) (.generate kind xs)).2 = .ok ls) : ∀ l ∈ ls,
    (l.state = "C".toList ∧ l.limitMode = "V".toList ∧ l.limitValue = 21 / 5 ∧ l.endMode = "V".toList ∧
        l.operation = ">=".toList ∧ l.endModeValue = 17 / 4 ∨
      l.state = "D".toList ∧ l.limitMode = "V".toList ∧ l.limitValue = 27 / 10 ∧ l.endMode = "V".toList ∧
        l.operation = "<=".toList ∧ l.endModeValue = 5 / 2) ∧
    l.reportMode = "T".toList ∧ l.reportValue = 3 ∧ l.range = "A".toList ∧
    (l.controlMode = "P".toList ∨ l.controlMode = "I".toList ∧ l.value = some 0 ∧ l.state = "D".toList) := by
  have hd : after defaultConfig history = defaultConfig := by
    clear hg
    generalize defaultConfig = cfg
    induction history generalizing cfg with
    | nil => rfl
    | cons c cs ih =>
      have hc := h c List.mem_cons_self
      have ih' := ih (fun c' hc' => h c' (List.mem_cons_of_mem _ hc'))
      cases c with
      | generate k x => exact ih' cfg
      | generateWith g k x => exact ih' cfg
      | driving d => exact absurd rfl (hc d)
  rw [hd] at hg
  intro l hl
  obtain ⟨h1, h2, h3, h4, h5⟩ := C38_columns defaultConfig kind xs ls hg l hl
  refine ⟨?_, h2, h3, h4, ?_⟩
  · rcases h1 with ⟨a, b, c, d, e, f⟩ | ⟨a, b, c, d, e, f⟩
    · left
      refine ⟨a, b, c.trans ?_, d, e, f.trans ?_⟩ <;> simp only [defaultConfig] <;> norm_num
    · right
      refine ⟨a, b, c, d, e, f.trans ?_⟩
      simp only [defaultConfig]; norm_num
  · rcases h5 with h5 | ⟨a, -, b, c⟩
    · exact Or.inl h5
    · exact Or.inr ⟨a, b, c⟩

-- a waveform with rests, charge and discharge meets the hypotheses
example : Peak [-2, -2, 0, 4, 4, 4] 4 := by
  constructor
  · exact ⟨4, by simp, by decide +kernel⟩
  · decide +kernel

example : ((generate { defaultConfig with valueScale := 10 } .power [-2, -2, 0, 4, 4, 4]).map
    (List.map (fun l => [(l.duration : Rat), l.value.getD 0, if l.state = "C".toList then 1 else 0]))).toOption =
    some [[2, 5, 0], [1, 0, 0], [3, 10, 1]] := by decide +kernel

/-! ### Independence of earlier calls (C39) -/

/-- C39 fails: after one driving waveform, the same call with the default configuration writes a
different file -/
theorem C39_violated :
    ∃ (history : List Call) (kind : Kind) (xs : List Rat),
      (step (after defaultConfig history) (.generate kind xs)).2 ≠
        (step defaultConfig (.generate kind xs)).2 := by
  refine ⟨[.driving ⟨[-1, 1], 4, 40, 1, 27 / 10, 1⟩], .power, [1], ?_⟩
  intro h
  have h2 := congrArg (fun r => r.toOption.map (List.map Line.value)) h
  revert h2
  decide +kernel

/-- C39, what remains: calls that do not generate driving waveforms leave the defaults alone, so the
default output is the same after any history of them.  Missing: histories with
`insert_driving_parametersv1`. -/
theorem C39_without_driving_partial (history : List Call) (kind : Kind) (xs : List Rat)
    (h : ∀ c ∈ history, ∀ d, c ≠ .driving d) :
    (step (after defaultConfig history) (.generate kind xs)).2 =
      (step defaultConfig (.generate kind xs)).2 := by
  have : after defaultConfig history = defaultConfig := by
    generalize defaultConfig = cfg
    induction history generalizing cfg with
    | nil => rfl
    | cons c cs ih =>
      have hc := h c List.mem_cons_self
      have ih' := ih (fun c' hc' => h c' (List.mem_cons_of_mem _ hc'))
      cases c with
      | generate k x => exact ih' cfg
      | generateWith g k x => exact ih' cfg
      | driving d => exact absurd rfl (hc d)
  rw [this]

/-- the fields a driving waveform does not assign are never changed -/
theorem after_fixed (history : List Call) (cfg : Config) (d : Driving) :
    drivingConfig (after cfg history) d = drivingConfig cfg d := by
  induction history generalizing cfg with
  | nil => rfl
  | cons c cs ih =>
    unfold after
    rw [ih]
    cases c <;> rfl

/-- C39, what remains: driving waveforms, and waveforms with their own configuration, do not depend
on the history -/
theorem C39_driving_partial (history : List Call) (c : Call) (h : ∀ kind xs, c ≠ .generate kind xs) :
    (step (after defaultConfig history) c).2 = (step defaultConfig c).2 := by
  cases c with
  | generate k x => exact absurd rfl (h k x)
  | generateWith g k x => rfl
  | driving d =>
    simp only [step, after_fixed]

-- a history with a driving waveform, then another one
example : ((step (after defaultConfig [.driving ⟨[-1, 1], 4, 40, 1, 27 / 10, 1⟩])
    (.driving ⟨[-1, 1], 4, 20, 1, 27 / 10, 2⟩)).2.toOption.map (List.map Line.value)) =
    some [some 20, some 20, some 20, some 20] := by decide +kernel

end Beep.Props.Waveform
