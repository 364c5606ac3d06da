import Verif.Proof.Base
import Verif.Proof.Pandas
import Verif.Spec.Degradation
/-
Lemmas about cumulative sums and gaps.
-/
namespace Beep.Proof.Degradation
open Beep Pandas Degradation Spec.Degradation

/-- total of the rows with a property of the cycle -/
def tot (rows : List (Int × Option Rat)) (p : Int → Bool) : Rat :=
  ((rows.filter (fun r => p r.1)).map (fun r => r.2.getD 0)).sum

def Present (rows : List (Int × Option Rat)) (p : Int → Bool) : Prop := ∃ r ∈ rows, p r.1 = true ∧ r.2 ≠ none

theorem tot_nonneg {rows : List (Int × Option Rat)} {p : Int → Bool}
    (h : ∀ r ∈ rows, ∀ v, r.2 = some v → 0 ≤ v) : 0 ≤ tot rows p := by
  unfold tot
  apply sum_nonneg
  intro v hv
  obtain ⟨r, hr, rfl⟩ := List.mem_map.1 hv
  have hr' := (List.mem_filter.1 hr).1
  cases hx : r.2 with
  | none => simp
  | some a => simpa [hx] using h r hr' a hx

theorem tot_cons (r : Int × Option Rat) (rows : List (Int × Option Rat)) (p : Int → Bool) :
    tot (r :: rows) p = (if p r.1 then r.2.getD 0 else 0) + tot rows p := by
  unfold tot
  rw [List.filter_cons]
  split <;> simp

theorem tot_false {rows : List (Int × Option Rat)} {p : Int → Bool} (h : ∀ r ∈ rows, p r.1 = false) :
    tot rows p = 0 := by
  unfold tot
  rw [List.filter_eq_nil_iff.2 (by simpa using h)]
  rfl

/-- the running total before a cycle -/
theorem before (c : Int) : ∀ (rows : List (Int × Option Rat)) (acc : Rat),
    rows.Pairwise (fun a b => a.1 < b.1) → (∀ r ∈ rows, ∀ v, r.2 = some v → 0 ≤ v) →
    (Present rows (fun d => decide (d < c)) →
      maxN ((((rows.map Prod.fst).zip (cumsumFrom acc (rows.map Prod.snd))).filter (fun p => decide (p.1 < c))).map Prod.snd)
        = some (acc + tot rows (fun d => decide (d < c)))) ∧
    (¬ Present rows (fun d => decide (d < c)) →
      maxN ((((rows.map Prod.fst).zip (cumsumFrom acc (rows.map Prod.snd))).filter (fun p => decide (p.1 < c))).map Prod.snd)
        = none ∧ tot rows (fun d => decide (d < c)) = 0) := by
  intro rows
  induction rows with
  | nil => intro acc _ _; simp [Present, cumsumFrom, maxN, tot]
  | cons r rows ih =>
    intro acc hs hn
    obtain ⟨k, v⟩ := r
    rw [List.pairwise_cons] at hs
    have hn' : ∀ r ∈ rows, ∀ v, r.2 = some v → 0 ≤ v := fun r hr => hn r (List.mem_cons_of_mem _ hr)
    by_cases hk : k < c
    · have hkd : decide (k < c) = true := by simpa using hk
      rw [tot_cons]
      simp only [hkd, if_true]
      cases v with
      | none =>
        have e : ∀ acc, ((((((k, (none : Option Rat)) :: rows).map Prod.fst).zip
            (cumsumFrom acc (((k, none) :: rows).map Prod.snd))).filter (fun p => decide (p.1 < c))).map Prod.snd)
            = none :: (((rows.map Prod.fst).zip (cumsumFrom acc (rows.map Prod.snd))).filter
              (fun p => decide (p.1 < c))).map Prod.snd := by
          intro acc
          simp [cumsumFrom, hk]
        rw [e]
        have hP : Present ((k, none) :: rows) (fun d => decide (d < c)) ↔ Present rows (fun d => decide (d < c)) := by
          unfold Present
          constructor
          · rintro ⟨r, hr, h1, h2⟩
            rcases List.mem_cons.1 hr with rfl | hr
            · exact absurd rfl h2
            · exact ⟨r, hr, h1, h2⟩
          · rintro ⟨r, hr, h⟩
            exact ⟨r, List.mem_cons_of_mem _ hr, h⟩
        rw [hP]
        simpa [maxN] using ih acc hs.2 hn'
      | some a =>
        have e : ((((((k, some a) :: rows).map Prod.fst).zip
            (cumsumFrom acc (((k, some a) :: rows).map Prod.snd))).filter (fun p => decide (p.1 < c))).map Prod.snd)
            = some (acc + a) :: (((rows.map Prod.fst).zip (cumsumFrom (acc + a) (rows.map Prod.snd))).filter
              (fun p => decide (p.1 < c))).map Prod.snd := by
          simp [cumsumFrom, hk]
        rw [e]
        have hP : Present ((k, some a) :: rows) (fun d => decide (d < c)) :=
          ⟨_, List.mem_cons_self, hkd, by simp⟩
        refine ⟨fun _ => ?_, fun h => absurd hP h⟩
        have ih' := ih (acc + a) hs.2 hn'
        by_cases hp : Present rows (fun d => decide (d < c))
        · rw [maxN, ih'.1 hp]
          have := tot_nonneg (p := fun d => decide (d < c)) hn'
          simp only [Option.getD_some]
          split_ifs with hlt
          · congr 1; ring
          · congr 1; linarith
        · rw [maxN, (ih'.2 hp).1, (ih'.2 hp).2]
          simp
    · have hall : ∀ r ∈ ((k, v) :: rows), decide (r.1 < c) = false := by
        intro r hr
        rcases List.mem_cons.1 hr with rfl | hr
        · simpa using hk
        · have := hs.1 r hr
          simp only [decide_eq_false_iff_not]
          omega
      have hnP : ¬ Present ((k, v) :: rows) (fun d => decide (d < c)) := by
        rintro ⟨r, hr, h1, _⟩
        have h2 := hall r hr
        simp only at h1
        rw [h1] at h2
        cases h2
      refine ⟨fun h => absurd h hnP, fun _ => ⟨?_, tot_false hall⟩⟩
      rw [List.filter_eq_nil_iff.2]
      · rfl
      · intro p hp
        have := (List.of_mem_zip (show (p.1, p.2) ∈ _ from hp)).1
        obtain ⟨r, hr, e⟩ := List.mem_map.1 this
        have := hall r hr
        rw [e] at this
        simp [this]

/-- the running total at a cycle -/
theorem atCycle (l : Int) (v : Option Rat) : ∀ (rows : List (Int × Option Rat)) (acc : Rat),
    rows.Pairwise (fun a b => a.1 < b.1) → (l, v) ∈ rows →
    (((rows.map Prod.fst).zip (cumsumFrom acc (rows.map Prod.snd))).filter (fun p => decide (p.1 = l))).head?
      = some (l, v.map (fun _ => acc + tot rows (fun d => decide (d ≤ l)))) := by
  intro rows
  induction rows with
  | nil => intro _ _ h; cases h
  | cons r rows ih =>
    intro acc hs hm
    obtain ⟨k, w⟩ := r
    rw [List.pairwise_cons] at hs
    rcases List.mem_cons.1 hm with h | h
    · cases h
      have ht : tot rows (fun d => decide (d ≤ l)) = 0 := by
        apply tot_false
        intro r hr
        have := hs.1 r hr
        simp only [decide_eq_false_iff_not]
        simp only at this
        omega
      rw [tot_cons, ht]
      cases v <;> simp [cumsumFrom]
    · have hkl : k < l := hs.1 _ h
      rw [tot_cons]
      cases w with
      | none =>
        simp only [List.map_cons, cumsumFrom, List.zip_cons_cons, List.filter_cons]
        rw [if_neg (by simpa using ne_of_lt hkl), ih acc hs.2 h]
        simp [hkl.le]
      | some a =>
        simp only [List.map_cons, cumsumFrom, List.zip_cons_cons, List.filter_cons]
        rw [if_neg (by simpa using ne_of_lt hkl), ih (acc + a) hs.2 h]
        have : decide (k ≤ l) = true := by simpa using hkl.le
        simp only [this, if_true, Option.getD_some, add_assoc]

/-- `c` ends the first run of consecutive numbers -/
def EndsRun (cs : List Int) (c : Int) : Prop :=
  c ∈ cs ∧ (∃ d ∈ cs, c < d) ∧ c + 1 ∉ cs ∧ ∀ d ∈ cs, d < c → d + 1 ∈ cs

theorem endsRun_gap : ∀ (cs : List Int) (c : Int), cs.Pairwise (· < ·) → EndsRun cs c →
    ∃ g, firstAfterGap cs = some g ∧ lastBefore cs g = some c ∧ g ∈ cs
  | [], c, _, h => absurd h.1 (by simp)
  | [a], c, _, h => by
    obtain ⟨h1, ⟨d, h2, h3⟩, _⟩ := h
    simp at h1 h2
    omega
  | a :: b :: cs, c, hs, h => by
    rw [List.pairwise_cons] at hs
    have hab := hs.1 b List.mem_cons_self
    have hs2 := List.pairwise_cons.1 hs.2
    obtain ⟨h1, ⟨d, h2, h3⟩, h4, h5⟩ := h
    unfold firstAfterGap
    by_cases hg : b - a > 1
    · rw [if_pos hg]
      refine ⟨b, rfl, ?_, by simp⟩
      have hca : c = a := by
        rcases List.mem_cons.1 h1 with e | e
        · exact e
        · exfalso
          have := hs.1 c e
          have := h5 a List.mem_cons_self this
          rcases List.mem_cons.1 this with e' | e'
          · omega
          · rcases List.mem_cons.1 e' with e' | e'
            · omega
            · have := hs2.1 _ e'
              omega
      subst hca
      unfold lastBefore
      rw [List.filter_cons, if_pos (by simpa using hab), List.filter_eq_nil_iff.2]
      · rfl
      · intro e he
        rcases List.mem_cons.1 he with e' | e'
        · simp [e']
        · have := hs2.1 e e'
          simp only [decide_eq_true_eq]
          omega
    · rw [if_neg hg]
      have hca : c ≠ a := by
        rintro rfl
        apply h4
        have : b = c + 1 := by omega
        rw [← this]
        simp
      have hc' : c ∈ b :: cs := by
        rcases List.mem_cons.1 h1 with e | e
        · exact absurd e hca
        · exact e
      have hac := hs.1 c hc'
      obtain ⟨g, e1, e2, e3⟩ := endsRun_gap (b :: cs) c hs.2
        ⟨hc', ⟨d, by
            rcases List.mem_cons.1 h2 with e | e
            · omega
            · exact e, h3⟩,
          fun e => h4 (List.mem_cons_of_mem _ e), fun e he hlt => by
            rcases List.mem_cons.1 (h5 e (List.mem_cons_of_mem _ he) hlt) with e' | e'
            · have := hs.1 e he
              omega
            · exact e'⟩
      refine ⟨g, e1, ?_, List.mem_cons_of_mem _ e3⟩
      have hag := hs.1 g e3
      unfold lastBefore at e2 ⊢
      rw [List.filter_cons, if_pos (by simpa using hag)]
      cases hF : (b :: cs).filter (fun d => decide (d < g)) with
      | nil => rw [hF] at e2; cases e2
      | cons x xs =>
        rw [hF] at e2
        rw [List.getLast?_cons_cons]
        exact e2

theorem gap_endsRun : ∀ (cs : List Int) (g : Int), cs.Pairwise (· < ·) → firstAfterGap cs = some g →
    ∃ c, EndsRun cs c
  | [], _, _, h => by cases h
  | [_], _, _, h => by cases h
  | a :: b :: cs, g, hs, h => by
    rw [List.pairwise_cons] at hs
    have hab := hs.1 b List.mem_cons_self
    have hs2 := List.pairwise_cons.1 hs.2
    unfold firstAfterGap at h
    by_cases hg : b - a > 1
    · refine ⟨a, List.mem_cons_self, ⟨b, by simp, hab⟩, ?_, ?_⟩
      · intro e
        rcases List.mem_cons.1 e with e' | e'
        · omega
        · rcases List.mem_cons.1 e' with e' | e'
          · omega
          · have := hs2.1 _ e'
            omega
      · intro d hd hlt
        rcases List.mem_cons.1 hd with e' | e'
        · omega
        · have := hs.1 d e'
          omega
    · rw [if_neg hg] at h
      obtain ⟨c, h1, ⟨d, h2, h3⟩, h4, h5⟩ := gap_endsRun (b :: cs) g hs.2 h
      have hac := hs.1 c h1
      refine ⟨c, List.mem_cons_of_mem _ h1, ⟨d, List.mem_cons_of_mem _ h2, h3⟩, ?_, ?_⟩
      · intro e
        rcases List.mem_cons.1 e with e' | e'
        · omega
        · exact h4 e'
      · intro e he hlt
        rcases List.mem_cons.1 he with e' | e'
        · subst e'
          have : b = e + 1 := by omega
          rw [← this]
          simp
        · exact List.mem_cons_of_mem _ (h5 e e' hlt)

theorem maxCycle_none {cs : List Int} : maxCycle cs = none ↔ cs = [] := by
  cases cs with
  | nil => simp [maxCycle]
  | cons c cs =>
    simp only [maxCycle]
    split <;> simp

theorem maxCycle_some : ∀ (cs : List Int) (m : Int), maxCycle cs = some m → m ∈ cs ∧ ∀ c ∈ cs, c ≤ m
  | [], m, h => by cases h
  | c :: cs, m, h => by
    unfold maxCycle at h
    cases hm : maxCycle cs with
    | none =>
      rw [hm] at h
      cases h
      rw [maxCycle_none] at hm
      simp [hm]
    | some w =>
      rw [hm] at h
      obtain ⟨h1, h2⟩ := maxCycle_some cs w hm
      simp only [Option.some.injEq] at h
      subst h
      split_ifs with hl
      · exact ⟨List.mem_cons_of_mem _ h1, fun e he => by
          rcases List.mem_cons.1 he with rfl | he
          · omega
          · exact h2 e he⟩
      · exact ⟨List.mem_cons_self, fun e he => by
          rcases List.mem_cons.1 he with rfl | he
          · omega
          · have := h2 e he
            omega⟩

theorem minCycle_none {cs : List Int} : minCycle cs = none ↔ cs = [] := by
  cases cs with
  | nil => simp [minCycle]
  | cons c cs =>
    simp only [minCycle]
    split <;> simp

theorem minCycle_some : ∀ (cs : List Int) (m : Int), minCycle cs = some m → m ∈ cs ∧ ∀ c ∈ cs, m ≤ c
  | [], m, h => by cases h
  | c :: cs, m, h => by
    unfold minCycle at h
    cases hm : minCycle cs with
    | none =>
      rw [hm] at h
      cases h
      rw [minCycle_none] at hm
      simp [hm]
    | some w =>
      rw [hm] at h
      obtain ⟨h1, h2⟩ := minCycle_some cs w hm
      simp only [Option.some.injEq] at h
      subst h
      split_ifs with hl
      · exact ⟨List.mem_cons_of_mem _ h1, fun e he => by
          rcases List.mem_cons.1 he with rfl | he
          · omega
          · exact h2 e he⟩
      · exact ⟨List.mem_cons_self, fun e he => by
          rcases List.mem_cons.1 he with rfl | he
          · omega
          · have := h2 e he
            omega⟩

theorem quotient_divN (x y : Option Rat) : Quotient x y (divN x y) := by
  constructor
  · rintro a b rfl rfl hb
    exact ⟨a / b, by simp [divN, hb], div_mul_cancel₀ a hb⟩
  · rintro (rfl | rfl | rfl)
    · simp [divN]
    · cases x <;> simp [divN]
    · cases x <;> simp [divN]

end Beep.Proof.Degradation
