import Verif.Proof.Base
import Verif.Proof.Pandas
import Verif.Proof.Stats
import Verif.Proof.LeastSquares
import Verif.Props.DiagInterp
import Verif.Spec.Hppc
/-
Lemmas on HPPC windows.
-/
namespace Beep.Proof.Hppc
open Beep Pandas Beep.Hppc Beep.Spec.Hppc

theorem unique_length (l : List Int) : (unique l).length = l.toFinset.card := by
  rw [← List.toFinset_card_of_nodup (nodup_unique l)]
  congr 1
  ext x
  simp [mem_unique]

/-- `unique()[k]` is the `k`-th different value -/
theorem nth_iff (l : List Int) (k : Nat) (c : Int) : (unique l)[k]? = some c ↔ IsNth l k c := by
  have key : ∀ pre post : List Int, c ∉ pre → (unique (pre ++ c :: post))[pre.toFinset.card]? = some c := by
    intro pre post hn
    have hi := Props.DiagInterp.idxOf_unique pre post c hn
    rw [unique_length] at hi
    have hm : c ∈ unique (pre ++ c :: post) := by rw [mem_unique]; simp
    have hlt := List.idxOf_lt_length_iff.2 hm
    have hg := List.getElem_idxOf (List.idxOf_lt_length_iff.2 hm)
    simp only [hi] at hg hlt
    rw [List.getElem?_eq_getElem hlt, hg]
  constructor
  · intro h
    have hm : c ∈ l := by
      rw [← mem_unique]; exact List.mem_of_getElem? h
    obtain ⟨pre, b, post, rfl, rfl, hq⟩ := Props.DiagInterp.first_split (fun x => x = c) hm rfl
    have hn : b ∉ pre := fun hb => hq b hb rfl
    refine ⟨pre, post, rfl, hn, ?_⟩
    have h2 := key pre post hn
    have hnd := nodup_unique (pre ++ b :: post)
    have hlt1 : pre.toFinset.card < (unique (pre ++ b :: post)).length := (List.getElem?_eq_some_iff.1 h2).1
    exact (List.getElem?_inj hlt1 hnd).1 (h2.trans h.symm)
  · rintro ⟨pre, post, rfl, hn, rfl⟩
    exact key pre post hn

theorem nth_unique {l : List Int} {k : Nat} {c d : Int} (h : IsNth l k c) (h' : IsNth l k d) : c = d := by
  rw [← nth_iff] at h h'
  exact Option.some.inj (h.symm.trans h')

theorem nth_mem {l : List Int} {k : Nat} {c : Int} (h : IsNth l k c) : c ∈ l := by
  obtain ⟨pre, post, rfl, _⟩ := h; simp

theorem counters_iff (rows : List Row) (s : Int) (j : Nat) (c : Int) :
    (counters rows s)[j]? = some c ↔ IsNth ((rows.filter (fun r => r.step = s)).map Row.counter) j c := by
  unfold counters ofStep
  exact nth_iff _ _ _

theorem leTime_trans (a b c : Row) (h1 : leTime a b = true) (h2 : leTime b c = true) : leTime a c = true := by
  unfold leTime at *
  cases ha : a.time <;> cases hb : b.time <;> cases hc : c.time <;> simp_all
  exact le_trans h1 h2

theorem leTime_total (a b : Row) : (leTime a b || leTime b a) = true := by
  unfold leTime
  cases ha : a.time <;> cases hb : b.time <;> simp
  exact le_total _ _

theorem timed_perm {l m : List Row} (h : l.Perm m) (ht : Timed l) : Timed m := by
  refine ⟨fun r hr => ht.1 r (h.mem_iff.2 hr), ?_⟩
  exact (h.pairwise_iff (fun h => h.symm)).1 ht.2

theorem sortTime_before {l : List Row} (ht : Timed l) : (sortTime l).Pairwise Before := by
  have h1 := pairwise_sortBy leTime leTime_trans leTime_total l
  have hp : (sortTime l).Perm l := sortBy_perm _ _
  have h2 := (timed_perm hp.symm ht).2
  have h3 := (timed_perm hp.symm ht).1
  refine List.Pairwise.imp_of_mem ?_ (h1.and h2)
  intro a b ha hb ⟨hle, hne⟩
  cases hx : a.time with
  | none => exact absurd hx (h3 a ha)
  | some x => cases hy : b.time with
    | none => exact absurd hy (h3 b hb)
    | some y =>
      refine ⟨x, y, hx, hy, ?_⟩
      unfold leTime at hle
      rw [hx, hy] at hle
      rw [hx, hy] at hne
      simp only [decide_eq_true_eq] at hle
      exact lt_of_le_of_ne hle (fun e => hne (by rw [e]))

theorem last_of {l : List Row} (hb : l.Pairwise Before) {r : Row} (h : l.getLast? = some r) :
    r ∈ l ∧ ∀ q ∈ l, q ≠ r → Before q r := by
  obtain ⟨init, rfl⟩ : ∃ init, l = init ++ [r] := by
    rw [List.getLast?_eq_some_iff] at h; exact h
  refine ⟨by simp, ?_⟩
  intro q hq hne
  rw [List.mem_append] at hq
  rcases hq with hq | hq
  · exact (List.pairwise_append.1 hb).2.2 q hq r (by simp)
  · exact absurd (by simpa using hq) hne

theorem isLast_filter {rows : List Row} (ht : Timed rows) (P : Row → Prop) (p : Row → Bool)
    (hp : ∀ r ∈ rows, p r = true ↔ P r) {r : Row} (h : ((sortTime rows).filter p).getLast? = some r) :
    IsLast P rows r := by
  have hb := (sortTime_before ht).sublist (List.filter_sublist (p := p))
  obtain ⟨hm, hl⟩ := last_of hb h
  have hm' := List.mem_filter.1 hm
  have hr : r ∈ rows := mem_sortBy.1 hm'.1
  refine ⟨hr, (hp r hr).1 hm'.2, ?_⟩
  intro q hq hP hne
  exact hl q (List.mem_filter.2 ⟨mem_sortBy.2 hq, (hp q hq).2 hP⟩) hne

theorem minN_perm {l m : List (Option Rat)} (h : l.Perm m) : minN l = minN m := by
  cases hl : minN l with
  | none =>
    symm
    rw [minN_none] at hl ⊢
    rintro ⟨v, hv⟩
    exact hl ⟨v, h.mem_iff.2 hv⟩
  | some a => cases hm : minN m with
    | none =>
      rw [minN_none] at hm
      exact absurd ⟨a, h.mem_iff.1 (minN_some l a hl).1⟩ hm
    | some b =>
      have h1 := minN_some l a hl
      have h2 := minN_some m b hm
      congr 1
      exact le_antisymm (h1.2 b (h.mem_iff.2 h2.1)) (h2.2 a (h.mem_iff.1 h1.1))

theorem within_iff {rows : List Row} (ht : Timed rows) (lim : Rat) {r : Row} (hr : r ∈ rows) :
    within lim (minN (rows.map Row.time)) r = true ↔ Within lim rows r := by
  cases hy : r.time with
  | none => exact absurd hy (ht.1 r hr)
  | some y =>
    cases hm : minN (rows.map Row.time) with
    | none =>
      rw [minN_none] at hm
      exact absurd ⟨y, List.mem_map.2 ⟨r, hr, hy⟩⟩ hm
    | some m =>
      have hmin := minN_some _ _ hm
      unfold within Within
      rw [hy]
      simp only [subN, decide_eq_true_eq]
      constructor
      · intro h q hq x y' hx hy'
        cases hy'
        have := hmin.2 x (List.mem_map.2 ⟨q, hq, hx⟩)
        linarith
      · intro h
        obtain ⟨q, hq, hx⟩ := List.mem_map.1 hmin.1
        exact h q hq m y hx rfl

theorem pulseRow_at {pulse : List Row} (ht : Timed pulse) (scale : Scale) {r : Row}
    (h : pulseRow scale (sortTime pulse) = some r) : IsAt scale pulse r := by
  have hmin : minN ((sortTime pulse).map Row.time) = minN (pulse.map Row.time) :=
    minN_perm ((sortBy_perm leTime pulse).map Row.time)
  cases scale with
  | final =>
    refine isLast_filter ht (fun _ => True) (fun _ => true) (by simp) ?_
    rw [List.filter_true]
    exact h
  | start =>
    simp only [pulseRow, hmin] at h
    exact isLast_filter ht _ _ (fun r hr => within_iff ht _ hr) h
  | three =>
    simp only [pulseRow, hmin] at h
    exact isLast_filter ht _ _ (fun r hr => within_iff ht _ hr) h

/-- a non-empty pulse has a row for every time scale -/
theorem pulseRow_some {pulse : List Row} (ht : Timed pulse) (hne : pulse ≠ []) (scale : Scale) :
    ∃ r, pulseRow scale (sortTime pulse) = some r := by
  have hmin : minN ((sortTime pulse).map Row.time) = minN (pulse.map Row.time) :=
    minN_perm ((sortBy_perm leTime pulse).map Row.time)
  have hfirst : ∀ lim : Rat, 0 ≤ lim → ∃ r ∈ sortTime pulse, within lim (minN (pulse.map Row.time)) r = true := by
    intro lim hl
    obtain ⟨a, ha⟩ := List.exists_mem_of_ne_nil _ hne
    cases hm : minN (pulse.map Row.time) with
    | none =>
      rw [minN_none] at hm
      cases hx : a.time with
      | none => exact absurd hx (ht.1 a ha)
      | some x => exact absurd ⟨x, List.mem_map.2 ⟨a, ha, hx⟩⟩ hm
    | some m =>
      obtain ⟨q, hq, hx⟩ := List.mem_map.1 (minN_some _ _ hm).1
      refine ⟨q, mem_sortBy.2 hq, ?_⟩
      unfold within
      rw [hx]
      simp [subN, hl]
  have hlast : ∀ l : List Row, l ≠ [] → ∃ r, l.getLast? = some r := fun l hl =>
    ⟨l.getLast hl, List.getLast?_eq_some_getLast hl⟩
  cases scale with
  | final =>
    apply hlast
    intro h
    have := sortBy_perm leTime pulse
    unfold sortTime at h
    rw [h] at this
    exact hne (List.nil_perm.1 this)
  | start =>
    simp only [pulseRow, hmin]
    obtain ⟨r, hr, hw⟩ := hfirst (1 / 1000) (by norm_num)
    exact hlast _ (List.ne_nil_of_mem (List.mem_filter.2 ⟨hr, hw⟩))
  | three =>
    simp only [pulseRow, hmin]
    obtain ⟨r, hr, hw⟩ := hfirst 3 (by norm_num)
    exact hlast _ (List.ne_nil_of_mem (List.mem_filter.2 ⟨hr, hw⟩))

theorem recent_of {rest : List Row} (ht : Timed rest) :
    Recent 5 rest ((sortTime rest).drop ((sortTime rest).length - 5)) := by
  refine ⟨(sortTime rest).take ((sortTime rest).length - 5), ?_, ?_, ?_⟩
  · rw [List.take_append_drop]; exact (sortBy_perm leTime rest).symm
  · have : (sortTime rest).length = rest.length := (sortBy_perm leTime rest).length_eq
    rw [List.length_drop, this]; omega
  · intro a ha b hb
    have := sortTime_before ht
    rw [← List.take_append_drop ((sortTime rest).length - 5) (sortTime rest)] at this
    exact (List.pairwise_append.1 this).2.2 a ha b hb

/-- the arithmetic of a resistance -/
theorem resistance_ok (scale : Scale) {rest pulse : List Row} (h1 : Timed rest) (h2 : Timed pulse)
    (n1 : rest ≠ []) (n2 : pulse ≠ []) :
    ∃ v, resistance scale rest pulse = .ok v ∧ IsResistance scale rest pulse v := by
  obtain ⟨p, hp⟩ := pulseRow_some h2 n2 scale
  have hne : sortTime rest ≠ [] := by
    intro h
    have := sortBy_perm leTime rest
    unfold sortTime at h
    rw [h] at this
    exact n1 (List.nil_perm.1 this)
  have ho : (sortTime rest).getLast? = some ((sortTime rest).getLast hne) := List.getLast?_eq_some_getLast hne
  refine ⟨_, by unfold resistance; simp only [ho, hp]; rfl, ?_⟩
  refine ⟨_, p, _, isLast_filter h1 (fun _ => True) (fun _ => true) (by simp) (by rw [List.filter_true]; exact ho),
    pulseRow_at h2 scale hp, recent_of h1, ?_⟩
  intro i m hi hm
  rw [← Proof.Stats.meanN_iff] at hm
  rw [hm, hi]
  simp only [subN, quot, CoreFeatures.divR]
  constructor
  · intro hne
    rw [if_neg (fun e => hne (by linarith))]
  · rintro rfl
    rw [if_pos (by ring)]

theorem before_asymm {a b : Row} (h : Before a b) (h' : Before b a) : False := by
  obtain ⟨x, y, hx, hy, hlt⟩ := h
  obtain ⟨y', x', hy', hx', hlt'⟩ := h'
  rw [hx] at hx'; rw [hy] at hy'
  cases hx'; cases hy'
  exact absurd hlt (not_lt.2 hlt'.le)

theorem inTime_unique {l m : List Row} (h : l.Perm m) (hl : l.Pairwise Before) (hm : m.Pairwise Before) : l = m :=
  h.eq_of_pairwise (fun _ _ _ _ h1 h2 => (before_asymm h1 h2).elim) hl hm

theorem sortTime_eq {rows sel : List Row} (ht : Timed rows) (h : InTime rows sel) : sortTime rows = sel :=
  inTime_unique ((sortBy_perm _ _).trans h.1.symm) (sortTime_before ht) h.2

/-- the last rows in time are determined -/
theorem recent_perm {n : Nat} {w l : List Row} (ht : Timed w) (h : Recent n w l) :
    l.Perm ((sortTime w).drop (w.length - n)) := by
  obtain ⟨older, hp, hl, hb⟩ := h
  have ha := timed_perm hp ht
  have tp : Timed older := ⟨fun r hr => ha.1 r (List.mem_append_left _ hr), (List.pairwise_append.1 ha.2).1⟩
  have tl : Timed l := ⟨fun r hr => ha.1 r (List.mem_append_right _ hr), (List.pairwise_append.1 ha.2).2.1⟩
  have hs : (sortTime older ++ sortTime l).Pairwise Before := by
    rw [List.pairwise_append]
    exact ⟨sortTime_before tp, sortTime_before tl, fun a ha b hb' => hb a (mem_sortBy.1 ha) b (mem_sortBy.1 hb')⟩
  have he : sortTime w = sortTime older ++ sortTime l := by
    refine inTime_unique ?_ (sortTime_before ht) hs
    exact (sortBy_perm _ _).trans (hp.trans ((sortBy_perm leTime older).append (sortBy_perm leTime l)).symm)
  have hlen : older.length = w.length - n := by
    have := hp.length_eq
    rw [List.length_append] at this
    omega
  have hlo : (sortTime older).length = older.length := (sortBy_perm leTime older).length_eq
  rw [he, ← hlen, ← hlo, List.drop_left]
  exact (sortBy_perm leTime l).symm

theorem timed_of_before {w : List Row} (h2 : w.Pairwise Before) (h1 : ∀ r ∈ w, r.time ≠ none) : Timed w := by
  refine ⟨h1, h2.imp ?_⟩
  rintro a b ⟨x, y, hx, hy, hlt⟩ e
  rw [hx, hy] at e
  cases e
  exact lt_irrefl _ hlt

end Beep.Proof.Hppc
