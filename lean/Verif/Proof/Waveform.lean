import Verif.Spec.Waveform
import Verif.Proof.Base
import Verif.Proof.Pandas
import Verif.Proof.MaccorProcedure
import Mathlib.Data.List.Chain
/-
Lemmas about the model of waveform files.
-/
namespace Beep.Proof.Waveform
open Beep Pandas Waveform Spec.Waveform

/-- grouping rows whose keys do not decrease gives the rows back in order -/
theorem flatMap_groups {α : Type} (key : α → Int) (ks : List Int) (rows : List α)
    (hk : ks.Pairwise (· < ·)) (hr : rows.Pairwise (fun a b => key a ≤ key b))
    (hc : ∀ r ∈ rows, key r ∈ ks) :
    ks.flatMap (fun k => rows.filter (fun r => key r = k)) = rows := by
  induction ks generalizing rows with
  | nil =>
    cases rows with
    | nil => rfl
    | cons r rows => exact absurd (hc r List.mem_cons_self) (by simp)
  | cons k ks ih =>
    rw [List.pairwise_cons] at hk
    have hmin : ∀ r ∈ rows, k ≤ key r := by
      intro r hr'
      rcases List.mem_cons.mp (hc r hr') with h | h
      · omega
      · have := hk.1 _ h; omega
    -- the rows of the smallest key come first
    have hsplit : rows = rows.filter (fun r => key r = k) ++ rows.filter (fun r => ¬ key r = k) := by
      clear ih hc
      induction rows with
      | nil => rfl
      | cons r rows ihr =>
        rw [List.pairwise_cons] at hr
        by_cases h : key r = k
        · rw [List.filter_cons_of_pos (by simpa using h), List.filter_cons_of_neg (by simpa using h),
            List.cons_append, ← ihr hr.2 (fun q hq => hmin q (List.mem_cons_of_mem _ hq))]
        · have hlt : ∀ q ∈ rows, ¬ key q = k := by
            intro q hq
            have := hr.1 q hq
            have := hmin r List.mem_cons_self
            omega
          have e1 : rows.filter (fun r => decide (key r = k)) = [] := by
            rw [List.filter_eq_nil_iff]
            intro q hq
            simpa using hlt q hq
          have e2 : rows.filter (fun r => decide (¬ key r = k)) = rows := by
            rw [List.filter_eq_self]
            intro q hq
            simpa using hlt q hq
          rw [List.filter_cons_of_neg (by simpa using h), List.filter_cons_of_pos (by simpa using h),
            e1, e2]
          rfl
    have hrest := ih (rows.filter (fun r => ¬ key r = k)) hk.2 (hr.filter _) (by
      intro r hr'
      rw [List.mem_filter] at hr'
      rcases List.mem_cons.mp (hc r hr'.1) with h | h
      · exact absurd h (by simpa using hr'.2)
      · exact h)
    rw [List.flatMap_cons]
    conv_rhs => rw [hsplit]
    congr 1
    rw [← hrest]
    apply List.flatMap_congr
    intro j hj
    rw [List.filter_filter]
    apply List.filter_congr
    intro r _
    have : j ≠ k := by have := hk.1 j hj; omega
    by_cases h : key r = j
    · simp [h, this]
    · simp [h]

/-- two consecutive rows of (counter, value): the counter goes up iff the value changes -/
def Next (a b : Int × Option Rat) : Prop := b.1 = if b.2 = a.2 then a.1 else a.1 + 1

theorem chain_from (c : Int) (v : Rat) (zs : List Rat) :
    List.IsChain Next ((c, some v) ::
      (cumsum c ((diffFrom (some v) (zs.map some)).map (fun d => decide (d.getD 0 ≠ 0)))).zip
        (zs.map some)) := by
  induction zs generalizing c v with
  | nil => simp [diffFrom, cumsum]
  | cons z zs ih =>
    simp only [List.map_cons, diffFrom, subN, Option.getD_some, cumsum, List.zip_cons_cons]
    rw [List.isChain_cons_cons]
    refine ⟨?_, ih _ z⟩
    simp only [Next, Option.some.injEq]
    by_cases h : z = v
    · simp [h]
    · have : z - v ≠ 0 := sub_ne_zero.mpr h
      simp [h, this]

theorem chain_rows (zs : List Rat) :
    List.IsChain Next ((counter (zs.map some)).zip (zs.map some)) := by
  cases zs with
  | nil => exact List.isChain_nil
  | cons z zs =>
    have := chain_from 0 z zs
    simpa [counter, diff, cumsum] using this

theorem length_cumsum (c : Int) (bs : List Bool) : (cumsum c bs).length = bs.length := by
  induction bs generalizing c with
  | nil => rfl
  | cons b bs ih => simp [cumsum, ih]

theorem length_diffFrom (v : Option Rat) (l : List (Option Rat)) : (diffFrom v l).length = l.length := by
  induction l generalizing v with
  | nil => rfl
  | cons a l ih => simp [diffFrom, ih]

theorem length_counter (ys : List (Option Rat)) : (counter ys).length = ys.length := by
  unfold counter
  rw [length_cumsum, List.length_map]
  cases ys with
  | nil => rfl
  | cons y ys => simp [diff, length_diffFrom]

/-- in order: the counter does not decrease, equal counters have equal values -/
def Ordered (a b : Int × Option Rat) : Prop := a.1 ≤ b.1 ∧ (a.1 = b.1 → a.2 = b.2)

instance : IsTrans (Int × Option Rat) Ordered :=
  ⟨fun a b c h h' => ⟨by have := h.1; have := h'.1; omega, fun e => by
    have := h.1
    have := h'.1
    rw [h.2 (by omega), h'.2 (by omega)]⟩⟩

theorem pairwise_rows (zs : List Rat) :
    ((counter (zs.map some)).zip (zs.map some)).Pairwise Ordered := by
  rw [← List.isChain_iff_pairwise]
  refine (chain_rows zs).imp ?_
  intro a b h
  unfold Next at h
  unfold Ordered
  split at h
  · rename_i he
    exact ⟨by omega, fun _ => he.symm⟩
  · exact ⟨by omega, fun e => by omega⟩

/-- the rows of the groups -/
def rowGroups (ys : List (Option Rat)) : List (List (Int × Option Rat)) :=
  (groupKeys (counter ys)).map (fun k => ((counter ys).zip ys).filter (fun r => r.1 = k))

theorem groups_eq (ys : List (Option Rat)) : groups ys = (rowGroups ys).map (List.map Prod.snd) := by
  unfold groups rowGroups
  rw [List.map_map]
  rfl

theorem flatten_rowGroups (zs : List Rat) :
    (rowGroups (zs.map some)).flatten = (counter (zs.map some)).zip (zs.map some) := by
  unfold rowGroups
  rw [← List.flatMap_def]
  refine flatMap_groups Prod.fst _ _ (sorted_groupKeys _) ((pairwise_rows zs).imp (fun h => h.1)) ?_
  intro r hr
  rw [mem_groupKeys]
  exact (List.of_mem_zip hr).1

theorem mem_rowGroups {zs : List Rat} {g : List (Int × Option Rat)}
    (hg : g ∈ rowGroups (zs.map some)) :
    ∃ (k : Int) (y : Rat), g ≠ [] ∧ (∀ r ∈ g, r = (k, some y)) ∧ y ∈ zs := by
  unfold rowGroups at hg
  obtain ⟨k, hk, rfl⟩ := List.mem_map.mp hg
  rw [mem_groupKeys] at hk
  -- some row has this counter
  obtain ⟨i, hi, rfl⟩ := List.mem_iff_getElem.mp hk
  have hlen := length_counter (zs.map some)
  have hi' : i < (zs.map some).length := by omega
  have hr0 : ((counter (zs.map some))[i], (zs.map some)[i]) ∈
      (counter (zs.map some)).zip (zs.map some) := by
    rw [List.mem_iff_getElem]
    exact ⟨i, by simp [hlen] at *; omega, by simp⟩
  have hz : (zs.map some)[i] = some (zs[i]'(by simpa using hi')) := by simp
  refine ⟨(counter (zs.map some))[i], zs[i]'(by simpa using hi'), ?_, ?_, List.getElem_mem _⟩
  · intro hnil
    rw [List.filter_eq_nil_iff] at hnil
    exact hnil _ hr0 (by simp)
  · intro r hr
    rw [List.mem_filter] at hr
    obtain ⟨hr1, hr2⟩ := hr
    simp only [decide_eq_true_eq] at hr2
    have hp := pairwise_rows zs
    have hval : r.2 = (zs.map some)[i] := by
      obtain ⟨a, ha, hra⟩ := List.mem_iff_getElem.mp hr1
      obtain ⟨b, hb, hrb⟩ := List.mem_iff_getElem.mp hr0
      rcases Nat.lt_trichotomy a b with h | h | h
      · have := List.pairwise_iff_getElem.mp hp a b ha hb h
        rw [hra, hrb] at this
        exact this.2 hr2
      · subst h
        rw [hra] at hrb
        rw [hrb]
      · have := List.pairwise_iff_getElem.mp hp b a hb ha h
        rw [hra, hrb] at this
        exact (this.2 hr2.symm).symm
    rw [← hz, ← hval, ← hr2]

/-- what a value means in the file -/
def sample (y : Option Rat) : Str × Option Rat :=
  match y with
  | some y => (if y ≤ 0 then "D".toList else "C".toList, some (round5 (absR y)))
  | none => ("C".toList, none)

theorem findSome_const {k : Int} {y : Rat} {g : List (Int × Option Rat)} (hne : g ≠ [])
    (h : ∀ r ∈ g, r = (k, some y)) : (g.map Prod.snd).findSome? id = some y := by
  cases g with
  | nil => exact absurd rfl hne
  | cons r g =>
    have := h r List.mem_cons_self
    subst this
    rfl

theorem lineOf_sample (cfg : Config) (kind : Kind) {k : Int} {y : Rat} {g : List (Int × Option Rat)}
    (hne : g ≠ []) (h : ∀ r ∈ g, r = (k, some y)) :
    ((lineOf cfg kind (g.map Prod.snd)).state, (lineOf cfg kind (g.map Prod.snd)).value) =
      sample (some y) ∧ (lineOf cfg kind (g.map Prod.snd)).duration = g.length := by
  unfold lineOf
  rw [findSome_const hne h]
  by_cases hy : y ≤ 0 <;> simp [sample, hy]

theorem expand_groups (cfg : Config) (kind : Kind) (zs : List Rat) :
    expand ((groups (zs.map some)).map (lineOf cfg kind)) = (zs.map some).map sample := by
  have hlen := length_counter (zs.map some)
  have key : ∀ L : List (List (Int × Option Rat)), (∀ g ∈ L, ∃ (k : Int) (y : Rat), g ≠ [] ∧
      (∀ r ∈ g, r = (k, some y))) →
      expand ((L.map (List.map Prod.snd)).map (lineOf cfg kind)) =
        L.flatten.map (fun r => sample r.2) := by
    intro L
    induction L with
    | nil => intro _; rfl
    | cons g L ih =>
      intro hL
      obtain ⟨k, y, hne, hy⟩ := hL g List.mem_cons_self
      have hg := lineOf_sample cfg kind hne hy
      have ih' := ih (fun g' hg' => hL g' (List.mem_cons_of_mem _ hg'))
      unfold expand at ih' ⊢
      simp only [List.map_cons, List.flatMap_cons, List.flatten_cons, List.map_append]
      rw [ih', hg.1, hg.2]
      congr 1
      symm
      rw [List.eq_replicate_iff]
      refine ⟨by simp, ?_⟩
      intro b hb
      obtain ⟨r, hr, rfl⟩ := List.mem_map.mp hb
      rw [hy r hr]
  rw [groups_eq, key _ (fun g hg => by
    obtain ⟨k, y, h1, h2, -⟩ := mem_rowGroups hg
    exact ⟨k, y, h1, h2⟩), flatten_rowGroups]
  have : ((counter (zs.map some)).zip (zs.map some)).map Prod.snd = zs.map some :=
    List.map_snd_zip (by omega)
  conv_rhs => rw [← this]
  rw [List.map_map]
  rfl

/-- consecutive groups have different values -/
theorem chain_rowGroups (zs : List Rat) :
    (rowGroups (zs.map some)).IsChain (fun g g' => ∀ r ∈ g, ∀ r' ∈ g', r.2 ≠ r'.2) := by
  have hnil : [] ∉ rowGroups (zs.map some) := by
    intro h
    obtain ⟨_, _, h1, -⟩ := mem_rowGroups h
    exact h1 rfl
  have hc := chain_rows zs
  rw [← flatten_rowGroups, List.isChain_flatten hnil] at hc
  have h2 := hc.2
  -- the keys of consecutive groups differ
  have hkeys : (rowGroups (zs.map some)).Pairwise (fun g g' => ∀ r ∈ g, ∀ r' ∈ g', r.1 ≠ r'.1) := by
    unfold rowGroups
    rw [List.pairwise_map]
    refine (sorted_groupKeys _).imp ?_
    intro a b hab r hr r' hr'
    rw [List.mem_filter] at hr hr'
    have h1 := hr.2
    have h2 := hr'.2
    simp only [decide_eq_true_eq] at h1 h2
    omega
  have hk := hkeys.isChain
  rw [List.isChain_iff_getElem] at h2 hk ⊢
  intro i hi r hr r' hr'
  obtain ⟨k, y, hne, hy, -⟩ := mem_rowGroups (List.getElem_mem (l := rowGroups (zs.map some)) (n := i) (by omega))
  obtain ⟨k', y', hne', hy', -⟩ := mem_rowGroups (List.getElem_mem (l := rowGroups (zs.map some)) (n := i + 1) hi)
  have hn := h2 i hi _ (List.getLast?_eq_some_getLast hne) _ (List.head?_eq_some_head hne')
  rw [hy _ (List.getLast_mem hne), hy' _ (List.head_mem hne')] at hn
  have hkk := hk i hi r hr r' hr'
  rw [hy r hr, hy' r' hr'] at hkk ⊢
  unfold Next at hn
  simp only at hn hkk ⊢
  split at hn
  · exact absurd hn.symm hkk
  · rename_i h
    exact fun e => h e.symm

theorem absR_nonneg (x : Rat) : 0 ≤ absR x := by
  unfold absR; split <;> linarith

theorem round5_bounds (x : Rat) : round5 x - x ≤ 1 / 200000 ∧ x - round5 x ≤ 1 / 200000 := by
  have h := MaccorProcedure.nearest_bounds (x * 100000)
  unfold MaccorProcedure.nearest at h
  unfold round5
  constructor
  · have : (roundEven (x * 100000) : Rat) / 100000 - x = ((roundEven (x * 100000) : Rat) - x * 100000) / 100000 := by ring
    rw [this, div_le_iff₀ (by norm_num)]
    norm_num
    linarith [h.1]
  · have : x - (roundEven (x * 100000) : Rat) / 100000 = (x * 100000 - (roundEven (x * 100000) : Rat)) / 100000 := by ring
    rw [this, div_le_iff₀ (by norm_num)]
    norm_num
    linarith [h.2]

theorem roundEven_mono {x y : Rat} (h : x ≤ y) : roundEven x ≤ roundEven y := by
  by_contra hlt
  push Not at hlt
  have h1 := MaccorProcedure.nearest_bounds x
  have h2 := MaccorProcedure.nearest_bounds y
  unfold MaccorProcedure.nearest at h1 h2
  have h3 : (roundEven y : Rat) + 1 ≤ (roundEven x : Rat) := by exact_mod_cast hlt
  have : x = y := by linarith [h1.1, h2.2]
  subst this
  omega

theorem round5_mono {x y : Rat} (h : x ≤ y) : round5 x ≤ round5 y := by
  unfold round5
  have : roundEven (x * 100000) ≤ roundEven (y * 100000) := roundEven_mono (by linarith)
  have h' : (roundEven (x * 100000) : Rat) ≤ (roundEven (y * 100000) : Rat) := by exact_mod_cast this
  linarith

theorem scaled_ok {scale : Rat} {xs : List Rat} {m : Rat} (hm : Peak xs m) (h0 : m ≠ 0) :
    scaled scale xs = .ok ((xs.map (fun x => x / m * scale)).map some) := by
  unfold scaled
  split
  · rename_i hn
    rw [maxN_none] at hn
    obtain ⟨⟨x, hx, he⟩, -⟩ := hm
    exact absurd ⟨absR x, List.mem_map.mpr ⟨x, hx, rfl⟩⟩ hn
  · rename_i m' hm'
    have h := maxN_some _ _ hm'
    have e : m' = m := by
      obtain ⟨⟨x, hx, he⟩, hub⟩ := hm
      obtain ⟨h1, h2⟩ := h
      obtain ⟨x', hx', he'⟩ := List.mem_map.mp h1
      have a1 : m' ≤ m := by
        have := hub x' hx'
        have e' : absR x' = m' := Option.some.inj he'
        rwa [e'] at this
      have a2 : m ≤ m' := by
        apply h2
        rw [← he]
        exact List.mem_map.mpr ⟨x, hx, rfl⟩
      exact le_antisymm a1 a2
    subst e
    simp [h0, Function.comp_def]

end Beep.Proof.Waveform
