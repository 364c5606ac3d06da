import Verif.Proof.Pandas
import Verif.Spec.Segments
/-
C18: the constant-voltage segment.  C19: pauses.
-/
namespace Beep.Props.Segments
open Beep Beep.Pandas Beep.Segments Beep.Spec.Segments

theorem isCV_iff (tol : Tol) (h : 0 ≤ tol.dIdt) (a b : Row) : isCV tol a b = true ↔ Criterion tol a b := by
  unfold isCV Criterion absR
  simp only [Bool.not_eq_true', Bool.or_eq_false_iff, decide_eq_false_iff_not, not_lt, gt_iff_lt]
  generalize (b.volt - a.volt) / (b.time - a.time) = x
  generalize (b.curr - a.curr) / (b.time - a.time) = y
  constructor
  · rintro ⟨⟨h1, h2⟩, h3⟩
    refine ⟨h1, ?_, ?_⟩
    · split at h2 <;> constructor <;> linarith
    · split at h3
      · right; linarith
      · left; exact h3
  · rintro ⟨h1, ⟨h2, h2'⟩, h3⟩
    refine ⟨⟨h1, ?_⟩, ?_⟩
    · split <;> linarith
    · split
      · rcases h3 with h3 | h3
        · linarith
        · linarith
      · rcases h3 with h3 | h3
        · exact h3
        · linarith

theorem firstCV_spec (tol : Tol) (h : 0 ≤ tol.dIdt) (rows : List Row) (i : Nat) (hi : FirstAt tol rows i) :
    firstCV tol rows = i := by
  induction rows generalizing i with
  | nil => obtain ⟨⟨a, b, h1, _⟩, _⟩ := hi; simp at h1
  | cons a rest ih =>
    cases rest with
    | nil => obtain ⟨⟨x, y, _, h2, _⟩, _⟩ := hi; simp at h2
    | cons b rest =>
      obtain ⟨⟨x, y, h1, h2, hc⟩, hbefore⟩ := hi
      cases i with
      | zero =>
        simp only [List.getElem?_cons_zero, Option.some.injEq, List.getElem?_cons_succ] at h1 h2
        subst h1; subst h2
        simp [firstCV, (isCV_iff tol h _ _).mpr hc]
      | succ i =>
        have hn : ¬ isCV tol a b = true := fun hh =>
          hbefore 0 (by omega) a b rfl rfl ((isCV_iff tol h a b).mp hh)
        simp only [firstCV, hn, if_false, Bool.false_eq_true]
        rw [ih i ⟨⟨x, y, by simpa using h1, by simpa using h2, hc⟩, ?_⟩]
        intro j hj p q hp hq
        exact hbefore (j + 1) (by omega) p q (by simpa using hp) (by simpa using hq)

theorem firstCV_never (tol : Tol) (h : 0 ≤ tol.dIdt) (rows : List Row) (hn : Never tol rows) :
    firstCV tol rows = rows.length - 1 := by
  induction rows with
  | nil => rfl
  | cons a rest ih =>
    cases rest with
    | nil => rfl
    | cons b rest =>
      have h0 : ¬ isCV tol a b = true := fun hh => hn 0 a b rfl rfl ((isCV_iff tol h a b).mp hh)
      simp only [firstCV, h0, if_false, Bool.false_eq_true]
      rw [ih]
      · simp
      · intro j p q hp hq
        exact hn (j + 1) p q (by simpa using hp) (by simpa using hq)

/-- with increasing times, keeping the rows from the time of row `k` on is dropping the
first `k` rows -/
theorem filter_from (rows : List Row) (hs : rows.Pairwise (fun a b => a.time < b.time)) (k : Nat) (r : Row)
    (hk : rows[k]? = some r) : rows.filter (fun x => decide (x.time ≥ r.time)) = rows.drop k := by
  induction rows generalizing k with
  | nil => simp at hk
  | cons a rest ih =>
    have hs' := List.pairwise_cons.mp hs
    cases k with
    | zero =>
      simp only [List.getElem?_cons_zero, Option.some.injEq] at hk
      subst hk
      rw [List.drop_zero, List.filter_eq_self]
      intro x hx
      rcases List.mem_cons.mp hx with e | e
      · simp [e]
      · simpa using le_of_lt (hs'.1 x e)
    | succ k =>
      have hk' : rest[k]? = some r := by simpa using hk
      have : ¬ (a.time ≥ r.time) := not_le.mpr (hs'.1 r (List.mem_of_getElem? hk'))
      rw [List.filter_cons, if_neg (by simpa using this), List.drop_succ_cons]
      exact ih hs'.2 k hk'

/-- C18 (partial: the criterion is first met by a pair of records other than the first pair,
times strictly increasing).  The segment consists of all records from the one just before
the first pair that meets the criterion to the end of the charge. -/
theorem C18_segment_partial (tol : Tol) (htol : 0 ≤ tol.dIdt) (rows : List Row)
    (hs : rows.Pairwise (fun a b => a.time < b.time)) (i : Nat) (hi : FirstAt tol rows (i + 1)) :
    cvSegment tol rows = rows.drop i := by
  obtain ⟨⟨a, b, h1, _⟩, _⟩ := id hi
  have hlt : i < rows.length := by
    have := (List.getElem?_eq_some_iff.mp h1).1; omega
  have hr : rows[i]? = some rows[i] := List.getElem?_eq_getElem hlt
  unfold cvSegment
  rw [firstCV_spec tol htol rows (i + 1) hi]
  simp only [startTime, hr, Option.map_some]
  exact filter_from rows hs i _ hr

/-- C18: the CV quantities are those of the segment: duration, last current and charge
between its first and last record. -/
theorem C18_quantities (cv : List Row) (a b : Row) (ha : cv.head? = some a) (hb : cv.getLast? = some b) :
    cvTime cv = some (b.time - a.time) ∧ cvCurrent cv = some b.curr ∧ cvCapacity cv = some (b.cap - a.cap) := by
  unfold cvTime cvCurrent cvCapacity
  rw [ha, hb]
  exact ⟨rfl, rfl, rfl⟩

/-- C18 fails when the charge starts at constant voltage: only the last record is
returned. -/
theorem C18_from_start_violated (tol : Tol) (htol : 0 ≤ tol.dIdt) (rows : List Row) (last : Row)
    (hs : rows.Pairwise (fun a b => a.time < b.time)) (hl : rows.getLast? = some last)
    (hi : FirstAt tol rows 0) : cvSegment tol rows = [last] := by
  unfold cvSegment
  rw [firstCV_spec tol htol rows 0 hi]
  simp only [startTime, hl, Option.map_some]
  have hk : rows[rows.length - 1]? = some last := by rw [← List.getLast?_eq_getElem?, hl]
  rw [filter_from rows hs _ last hk]
  obtain ⟨l, e⟩ := List.getLast?_eq_some_iff.mp hl
  rw [e]
  simp

/-- C18 fails when the charge never reaches constant voltage: its last two records are
returned as a CV segment. -/
theorem C18_no_cv_violated (tol : Tol) (htol : 0 ≤ tol.dIdt) (rows : List Row) (pre : List Row) (y z : Row)
    (e : rows = pre ++ [y, z]) (hs : rows.Pairwise (fun a b => a.time < b.time)) (hn : Never tol rows) :
    cvSegment tol rows = [y, z] := by
  unfold cvSegment
  rw [firstCV_never tol htol rows hn]
  have hlen : rows.length - 1 = pre.length + 1 := by rw [e]; simp
  have hk : rows[pre.length]? = some y := by rw [e]; simp
  rw [hlen]
  simp only [startTime, hk, Option.map_some]
  rw [filter_from rows hs _ y hk, e]
  simp

/-- a CC-CV charge: 3.9 V, 4.0 V, 4.1 V, then constant voltage with falling current -/
def cccv : List Row :=
  [⟨0, 39/10, 1, 0⟩, ⟨10, 4, 1, 1⟩, ⟨20, 41/10, 1, 2⟩, ⟨30, 41/10, 1/2, 3⟩, ⟨40, 41/10, 1/4, 4⟩]

example : cvSegment {} cccv = cccv.drop 1 ∧ cvTime (cvSegment {} cccv) = some 30 := by decide +kernel

theorem firstAt_cccv : FirstAt {} cccv 2 := by
  refine ⟨⟨⟨20, 41/10, 1, 2⟩, ⟨30, 41/10, 1/2, 3⟩, rfl, rfl, ?_⟩, ?_⟩
  · rw [← isCV_iff _ (by decide +kernel)]; decide +kernel
  · intro j hj a b ha hb
    rw [← isCV_iff _ (by decide +kernel)]
    match j, hj with
    | 0, _ => cases ha; cases hb; decide +kernel
    | 1, _ => cases ha; cases hb; decide +kernel

/-- the hypotheses of the violations are met -/
example : FirstAt {} (cccv.drop 2) 0 := by
  refine ⟨⟨⟨20, 41/10, 1, 2⟩, ⟨30, 41/10, 1/2, 3⟩, rfl, rfl, ?_⟩, fun j hj => by omega⟩
  rw [← isCV_iff _ (by decide +kernel)]; decide +kernel

example : cvSegment {} (cccv.take 3) = (cccv.take 3).drop 1 ∧ cvSegment {} (cccv.drop 2) = cccv.drop 4 := by
  decide +kernel

/-! ### C19 -/

theorem mem_diffFrom {g : Rat} {p : Option Rat} {l : List (Option Rat)} :
    some g ∈ diffFrom p l ↔ Gap (p :: l) g := by
  induction l generalizing p with
  | nil =>
    simp only [diffFrom, List.not_mem_nil, false_iff]
    rintro ⟨i, a, b, _, h, _⟩
    simp at h
  | cons v vs ih =>
    simp only [diffFrom, List.mem_cons, ih]
    constructor
    · rintro (h | ⟨i, a, b, h1, h2, h3⟩)
      · cases v <;> cases p <;> simp only [subN, reduceCtorEq, Option.some.injEq] at h
        rename_i b a
        exact ⟨0, a, b, rfl, rfl, h⟩
      · exact ⟨i + 1, a, b, by simpa using h1, by simpa using h2, h3⟩
    · rintro ⟨i, a, b, h1, h2, h3⟩
      cases i with
      | zero =>
        left
        simp only [List.getElem?_cons_zero, Option.some.injEq, List.getElem?_cons_succ] at h1 h2
        subst h1; subst h2
        simp [subN, h3]
      | succ i => right; exact ⟨i, a, b, by simpa using h1, by simpa using h2, h3⟩

theorem mem_diff {g : Rat} {l : List (Option Rat)} : some g ∈ diff l ↔ Gap l g := by
  cases l with
  | nil =>
    simp only [diff, List.not_mem_nil, false_iff]
    rintro ⟨i, a, b, h, _⟩
    simp at h
  | cons v vs => simp [diff, mem_diffFrom]

/-- C19: the result is the largest gap if some gap exceeds the threshold, and 0 otherwise. -/
theorem C19_pause (stamps : List (Option Rat)) (thr : Rat) :
    ((∃ g, Gap stamps g ∧ g > thr) →
      Gap stamps (maxPaused stamps thr) ∧ ∀ g, Gap stamps g → g ≤ maxPaused stamps thr) ∧
    ((¬ ∃ g, Gap stamps g ∧ g > thr) → maxPaused stamps thr = 0) := by
  unfold maxPaused
  constructor
  · rintro ⟨g, hg, hgt⟩
    cases h : maxN (diff stamps) with
    | none => exact absurd ⟨g, mem_diff.mpr hg⟩ ((maxN_none _).mp h)
    | some m =>
      obtain ⟨h1, h2⟩ := maxN_some _ _ h
      have hm : m > thr := lt_of_lt_of_le hgt (h2 g (mem_diff.mpr hg))
      simp only [hm, if_true]
      exact ⟨mem_diff.mp h1, fun g hg => h2 g (mem_diff.mpr hg)⟩
  · intro hn
    cases h : maxN (diff stamps) with
    | none => rfl
    | some m =>
      obtain ⟨h1, _⟩ := maxN_some _ _ h
      have : ¬ m > thr := fun hm => hn ⟨m, mem_diff.mp h1, hm⟩
      simp [this]

example : maxPaused [some 0, some 10, some 5000, some 9000] 3600 = 4990 ∧
    maxPaused [some 0, some 10, none, some 9000] 3600 = 0 := by decide +kernel

example : Gap [some 0, some 10, some 5000, some 9000] 4990 := ⟨1, 10, 5000, rfl, rfl, by decide +kernel⟩

/-! ### the clock of the machine -/

theorem floor_bounds (t : Rat) : ((t.floor : Int) : Rat) ≤ t ∧ t < (t.floor : Int) + 1 :=
  ⟨Rat.floor_le t, by simpa using Rat.lt_floor_add_one t⟩

theorem floor_whole (z : Int) : (z : Rat).floor = z := by simp

theorem machine_kept {shift : Int → Int} {stamps : List (Option Rat)} {d : Int} (hc : ClockKept shift stamps d)
    {t : Rat} (ht : some t ∈ stamps) : machineSeconds shift t = (t.floor : Int) - (d : Int) := by
  unfold machineSeconds
  rw [hc t t.floor ht (floor_bounds t).1 (floor_bounds t).2]
  push_cast
  rfl

/-- gaps on the machine are gaps of the stamps up to less than a second -/
theorem gap_machine {shift : Int → Int} {stamps : List (Option Rat)} {d : Int} (hc : ClockKept shift stamps d)
    {r : Rat} (h : Gap (stamps.map fun t => t.map (machineSeconds shift)) r) :
    ∃ g, Gap stamps g ∧ r - 1 < g ∧ g < r + 1 := by
  obtain ⟨i, a, b, ha, hb, e⟩ := h
  rw [List.getElem?_map] at ha hb
  obtain ⟨x, hx, ex⟩ := Option.map_eq_some_iff.mp ha
  obtain ⟨y, hy, ey⟩ := Option.map_eq_some_iff.mp hb
  obtain ⟨x', rfl, rfl⟩ := Option.map_eq_some_iff.mp ex
  obtain ⟨y', rfl, rfl⟩ := Option.map_eq_some_iff.mp ey
  refine ⟨y' - x', ⟨i, x', y', hx, hy, rfl⟩, ?_⟩
  rw [machine_kept hc (List.mem_of_getElem? hx), machine_kept hc (List.mem_of_getElem? hy)] at e
  have h1 := floor_bounds x'
  have h2 := floor_bounds y'
  constructor <;> linarith [h1.1, h1.2, h2.1, h2.2]

theorem machine_gap {shift : Int → Int} {stamps : List (Option Rat)} {d : Int} (hc : ClockKept shift stamps d)
    {g : Rat} (h : Gap stamps g) :
    ∃ r, Gap (stamps.map fun t => t.map (machineSeconds shift)) r ∧ r - 1 < g ∧ g < r + 1 := by
  obtain ⟨i, a, b, ha, hb, e⟩ := h
  refine ⟨machineSeconds shift b - machineSeconds shift a, ⟨i, _, _, ?_, ?_, rfl⟩, ?_⟩
  · rw [List.getElem?_map, ha]; rfl
  · rw [List.getElem?_map, hb]; rfl
  · rw [machine_kept hc (List.mem_of_getElem? ha), machine_kept hc (List.mem_of_getElem? hb)]
    have h1 := floor_bounds a
    have h2 := floor_bounds b
    constructor <;> linarith [h1.1, h1.2, h2.1, h2.2]

theorem gap_whole {shift : Int → Int} {stamps : List (Option Rat)} {d : Int} (hc : ClockKept shift stamps d)
    (hw : WholeSeconds stamps) (g : Rat) :
    Gap (stamps.map fun t => t.map (machineSeconds shift)) g ↔ Gap stamps g := by
  have key : ∀ t, some t ∈ stamps → machineSeconds shift t = t - d := by
    intro t ht
    rw [machine_kept hc ht]
    obtain ⟨z, rfl⟩ := hw t ht
    rw [floor_whole]
  constructor
  · rintro ⟨i, a, b, ha, hb, e⟩
    rw [List.getElem?_map] at ha hb
    obtain ⟨x, hx, ex⟩ := Option.map_eq_some_iff.mp ha
    obtain ⟨y, hy, ey⟩ := Option.map_eq_some_iff.mp hb
    obtain ⟨x', rfl, rfl⟩ := Option.map_eq_some_iff.mp ex
    obtain ⟨y', rfl, rfl⟩ := Option.map_eq_some_iff.mp ey
    refine ⟨i, x', y', hx, hy, ?_⟩
    rw [e, key _ (List.mem_of_getElem? hx), key _ (List.mem_of_getElem? hy)]
    ring
  · rintro ⟨i, a, b, ha, hb, e⟩
    refine ⟨i, machineSeconds shift a, machineSeconds shift b, ?_, ?_, ?_⟩
    · rw [List.getElem?_map, ha]; rfl
    · rw [List.getElem?_map, hb]; rfl
    · rw [e, key _ (List.mem_of_getElem? ha), key _ (List.mem_of_getElem? hb)]
      ring

/-- C19 (partial: stamps of whole seconds, and a machine whose clock is not changed between
them).  The result is the largest gap if some gap exceeds the threshold, and 0 otherwise. -/
theorem C19_machine_partial (shift : Int → Int) (stamps : List (Option Rat)) (thr : Rat) (d : Int)
    (hc : ClockKept shift stamps d) (hw : WholeSeconds stamps) :
    ((∃ g, Gap stamps g ∧ g > thr) →
      Gap stamps (maxPausedOn shift stamps thr) ∧ ∀ g, Gap stamps g → g ≤ maxPausedOn shift stamps thr) ∧
    ((¬ ∃ g, Gap stamps g ∧ g > thr) → maxPausedOn shift stamps thr = 0) := by
  have h := C19_pause (stamps.map fun t => t.map (machineSeconds shift)) thr
  simp only [gap_whole hc hw] at h
  exact h

/-- C19 (partial: a machine whose clock is not changed between the stamps).  With fractions of a
second the result is right up to less than a second: a gap that exceeds the threshold by a second
is found, what is found is a gap, and no gap exceeds it by a second. -/
theorem C19_fraction_partial (shift : Int → Int) (stamps : List (Option Rat)) (thr : Rat) (d : Int)
    (hc : ClockKept shift stamps d) :
    ((∃ g, Gap stamps g ∧ g ≥ thr + 1) →
      (∃ g, Gap stamps g ∧ maxPausedOn shift stamps thr - 1 < g ∧ g < maxPausedOn shift stamps thr + 1) ∧
      ∀ g, Gap stamps g → g < maxPausedOn shift stamps thr + 1) ∧
    ((∀ g, Gap stamps g → g ≤ thr - 1) → maxPausedOn shift stamps thr = 0) := by
  obtain ⟨h1, h2⟩ := C19_pause (stamps.map fun t => t.map (machineSeconds shift)) thr
  constructor
  · rintro ⟨g, hg, hgt⟩
    obtain ⟨r, hr, hr1, hr2⟩ := machine_gap hc hg
    obtain ⟨h3, h4⟩ := h1 ⟨r, hr, by linarith⟩
    refine ⟨gap_machine hc h3, ?_⟩
    intro g' hg'
    obtain ⟨r', hr', _, hr2'⟩ := machine_gap hc hg'
    have := h4 r' hr'
    unfold maxPausedOn
    linarith
  · intro hn
    apply h2
    rintro ⟨r, hr, hgt⟩
    obtain ⟨g, hg, hg1, _⟩ := gap_machine hc hr
    have := hn g hg
    linarith

/-- C19 fails for fractions of a second: a gap half a second above a whole threshold is not
reported. -/
theorem C19_fraction_violated (thr a : Int) (d : Int) :
    Gap [some (a : Rat), some ((a : Rat) + thr + 1 / 2)] (thr + 1 / 2) ∧
    maxPausedOn (fun _ => d) [some (a : Rat), some ((a : Rat) + thr + 1 / 2)] thr = 0 := by
  refine ⟨⟨0, _, _, rfl, rfl, by ring⟩, ?_⟩
  have hf : ((a : Rat) + thr + 1 / 2).floor = a + thr := by
    have h := floor_bounds ((a : Rat) + thr + 1 / 2)
    generalize ((a : Rat) + thr + 1 / 2).floor = z at h
    have h1 : ((z : Int) : Rat) < ((a + thr + 1 : Int) : Rat) := by push_cast; linarith [h.1]
    have h2 : (((a + thr - 1 : Int)) : Rat) < (z : Int) := by push_cast; linarith [h.2]
    have h1' := Int.cast_lt.mp h1
    have h2' := Int.cast_lt.mp h2
    omega
  apply (C19_pause _ _).2
  rintro ⟨r, ⟨i, x, y, hx, hy, e⟩, hr⟩
  match i with
  | 0 =>
    simp only [List.map_cons, Option.map_some, List.getElem?_cons_zero, Option.some.injEq,
      List.getElem?_cons_succ, machineSeconds, hf, floor_whole] at hx hy
    rw [e, ← hx, ← hy] at hr
    push_cast at hr
    linarith
  | i + 1 => simp at hy

/-- C19 fails for stamps without a time zone when the machine's clock is set back an hour between
two records: although they follow each other within the hour, a pause of more than an hour is
reported. -/
theorem C19_clock_change_violated (shift : Int → Int) (stamps : List (Option Rat)) (i : Nat) (a b : Int)
    (ha : stamps[i]? = some (some (a : Rat))) (hb : stamps[i + 1]? = some (some (b : Rat))) (hab : a < b)
    (hs : shift a = shift b + 3600) : maxPausedOn shift stamps 3600 ≥ (b - a : Int) + 3600 := by
  have hg : Gap (stamps.map fun t => t.map (machineSeconds shift)) ((b - a : Int) + 3600) := by
    refine ⟨i, machineSeconds shift a, machineSeconds shift b, ?_, ?_, ?_⟩
    · rw [List.getElem?_map, ha]; rfl
    · rw [List.getElem?_map, hb]; rfl
    · simp only [machineSeconds, floor_whole, hs]
      push_cast
      ring
  have hpos : (0 : Rat) < ((b - a : Int) : Rat) := by
    have : (0 : Int) < b - a := by omega
    exact_mod_cast this
  exact ((C19_pause _ 3600).1 ⟨_, hg, by linarith⟩).2 _ hg

/-- a clock set back at 7200: before, an hour ahead -/
def autumn (t : Int) : Int := if t < 7200 then 3600 else 0

example : maxPausedOn autumn [some 7190, some 7199, some 7201, some 7210] 3600 = 3602 ∧
    maxPausedOn (fun _ => 3600) [some 7190, some 7199, some 7201, some 7210] 3600 = 0 := by decide +kernel

example : ClockKept autumn [some 7201, some (15000 + 1 / 2)] 0 := by
  intro t s ht h1 h2
  have : (7200 : Rat) ≤ t := by
    simp only [List.mem_cons, Option.some.injEq, List.not_mem_nil, or_false] at ht
    rcases ht with rfl | rfl <;> norm_num
  have h3 : ((7199 : Int) : Rat) < (s : Int) := by push_cast; linarith
  have := Int.cast_lt.mp h3
  unfold autumn
  rw [if_neg (by omega)]

end Beep.Props.Segments
