import Verif.Proof.CastsRead
/-
Lemmas for the times of Arbin files, and for the accuracy of number types.
-/
namespace Beep.Casts
open Beep Beep.Spec.Casts

theorem rne_int (n : Int) : rne (n : Rat) = n := by
  have h := rne_nearest (n : Rat) n
  rw [sub_self, abs_zero] at h
  have h2 : (n : Rat) - (rne (n : Rat) : Rat) = 0 := abs_nonpos_iff.mp h
  have h3 : (n : Rat) = (rne (n : Rat) : Rat) := by linarith
  exact_mod_cast h3.symm

theorem rne_mono {x y : Rat} (h : x ≤ y) : rne x ≤ rne y := by
  by_contra hc
  have hlt : rne y + 1 ≤ rne x := by omega
  have hlt' : (rne y : Rat) + 1 ≤ rne x := by exact_mod_cast hlt
  have hx := abs_le.mp (rne_near x)
  have hy := abs_le.mp (rne_near y)
  have e1 : x = y := by linarith [hx.1, hx.2, hy.1, hy.2]
  rw [e1] at hlt
  omega

theorem expo_of {x : Rat} {e : Int} (h1 : (2 : Rat) ^ e ≤ |x|) (h2 : |x| < 2 ^ (e + 1)) : expo x = e := by
  have hx : x ≠ 0 := by rintro rfl; rw [abs_zero] at h1; linarith [two_zpow_pos e]
  obtain ⟨a, b⟩ := expo_spec x hx
  have l1 : e < expo x + 1 := (zpow_lt_zpow_iff_right₀ (by norm_num : (1 : Rat) < 2)).mp (lt_of_le_of_lt h1 b)
  have l2 : expo x < e + 1 := (zpow_lt_zpow_iff_right₀ (by norm_num : (1 : Rat) < 2)).mp (lt_of_le_of_lt a h2)
  omega

/-- the stored form of a recent time -/
theorem single_recent (t : Rat) (h : Recent t) : toFmt single t = .num (128 * (rne (t / 128) : Rat)) ∧ |t - 128 * (rne (t / 128) : Rat)| ≤ 64 := by
  obtain ⟨h1, h2⟩ := h
  have hpos : 0 < t := lt_of_lt_of_le (by norm_num) h1
  have he : expo t = 30 := expo_of (by rw [abs_of_pos hpos]; exact_mod_cast h1) (by rw [abs_of_pos hpos]; exact_mod_cast h2)
  have hu : ulpOf single t = 128 := by
    unfold ulpOf; rw [he]; simp only [single]; norm_num
  have hr : rounded single t = 128 * (rne (t / 128) : Rat) := by unfold rounded; rw [hu]; ring
  have hn := rne_near (t / 128)
  have hd : |t - 128 * (rne (t / 128) : Rat)| ≤ 64 := by
    have : t - 128 * (rne (t / 128) : Rat) = (t / 128 - rne (t / 128)) * 128 := by ring
    rw [this, abs_mul, abs_of_pos (by norm_num : (0 : Rat) < 128)]
    linarith
  refine ⟨?_, hd⟩
  rw [toFmt_eq single t hpos.ne', hr, if_pos]
  have hd' := abs_le.mp hd
  rw [abs_lt]
  have : (2 : Rat) ^ (single.emax + 1) = 2 ^ (128 : Nat) := by simp only [single]; norm_num
  rw [this]
  constructor <;> norm_num at h2 ⊢ <;> linarith [hd'.1, hd'.2]

theorem instants_ok {cs is : List Cell} (h : instants cs = .ok is) : List.Forall₂ (fun c i => instant c = .ok i) cs is := by
  induction cs generalizing is with
  | nil => cases h; exact .nil
  | cons c cs ih =>
    rw [instants] at h
    split at h
    · cases h
    · next i hi =>
      split at h
      · cases h
      · next is' his => cases h; exact .cons hi (ih his)

theorem instants_nan {cs : List Cell} (h : Cell.nan ∈ cs) : ∃ e, instants cs = .error e := by
  induction cs with
  | nil => cases h
  | cons c cs ih =>
    rw [instants]
    rcases List.mem_cons.mp h with rfl | h
    · exact ⟨_, rfl⟩
    · obtain ⟨e, he⟩ := ih h
      rw [he]
      split
      · exact ⟨_, rfl⟩
      · exact ⟨_, rfl⟩

theorem find_split {pre post : Frame} {a : String × List Cell} {n : String} (h : ∀ c ∈ pre, c.1 ≠ n) (ha : a.1 = n) :
    (pre ++ a :: post).find? (fun p => decide (p.1 = n)) = some a := by
  rw [List.find?_append]
  have : pre.find? (fun p => decide (p.1 = n)) = none := by
    rw [List.find?_eq_none]; intro c hc; simpa using h c hc
  rw [this]
  simp [ha]

theorem forall₂_split {α β : Type} {R : α → β → Prop} {pre post : List α} {a : α} {l : List β}
    (h : List.Forall₂ R (pre ++ a :: post) l) :
    ∃ pre' b post', l = pre' ++ b :: post' ∧ List.Forall₂ R pre pre' ∧ R a b ∧ List.Forall₂ R post post' := by
  induction pre generalizing l with
  | nil =>
    cases h with
    | @cons _ b _ t h1 h2 => exact ⟨[], b, t, rfl, .nil, h1, h2⟩
  | cons x pre ih =>
    cases h with
    | @cons _ b _ t h1 h2 =>
      obtain ⟨p', b', q', rfl, h3, h4, h5⟩ := ih h2
      exact ⟨b :: p', b', q', rfl, .cons h1 h3, h4, h5⟩

theorem published_time {n : String} (h : Published arbin n "date_time") : n = "datetime" ∨ n = "date_time" := by
  rcases h with h | ⟨_, h⟩
  · have : ∀ p ∈ arbin, p.2 = "date_time" → p.1 = "datetime" := by decide +kernel
    exact .inl (this _ h rfl)
  · exact .inr h.symm

theorem published_of_time {b : String} (h : Published arbin "datetime" b) : b = "date_time" := by
  rcases h with h | ⟨h, _⟩
  · have : ∀ p ∈ arbin, p.1 = "datetime" → p.2 = "date_time" := by decide +kernel
    exact this _ h rfl
  · exact absurd (by decide +kernel) (h "date_time")

/-- the cells the reader takes the times from -/
theorem arbin_time_column {f g : Frame} {cells : List Cell} (h : arbinTable f = .ok g) (hc : TimeColumn f cells) :
    ∃ ts, column g "date_time" = .ok ts ∧ (Cell.nan ∈ cells → ts = cells) ∧
      (Cell.nan ∉ cells → castColumn .float32 cells = .ok ts) := by
  obtain ⟨pre, a, post, hf, hcells, hl, hoth⟩ := hc
  have hall := arbinTable_ok h
  rw [hf] at hall
  obtain ⟨pre', b, post', rfl, h1, ⟨n, hn1, hn2, hn3, hn4⟩, h3⟩ := forall₂_split hall
  have en : n = "datetime" := (lowerOf_unique hn1).trans (lowerOf_unique hl).symm
  subst en
  have hb := published_of_time hn2
  refine ⟨b.2, ?_, ?_, ?_⟩
  · unfold column
    rw [find_split (a := b) _ hb]
    intro c hc
    obtain ⟨x, hx, m, hm1, hm2, _⟩ := forall₂_mem_right h1 c hc
    intro e
    rw [e] at hm2
    have := hoth x (.inl hx) m hm1
    rcases published_time hm2 with e | e
    · exact this.1 e
    · exact this.2 e
  · intro hnan
    rw [← hcells]
    exact hn4 ⟨a, by simp, hn1, hcells ▸ hnan⟩
  · intro hnan
    have hgap : ¬Gap (f.drop 1) "datetime" := by
      rintro ⟨c, hc, hcl, hx⟩
      rw [hf] at hc
      rcases List.mem_append.mp hc with hc | hc
      · exact (hoth c (.inl hc) _ hcl).1 rfl
      · rcases List.mem_cons.mp hc with rfl | hc
        · exact hnan (hcells ▸ hx)
        · exact (hoth c (.inr hc) _ hcl).1 rfl
    -- the cast itself
    unfold arbinTable dropIndex at h
    split at h
    · cases h
    · next g1 h1' =>
      have a2 := castComplete_ok arbin_agree.nodup (fun n => hasNull n (lowerNames (f.drop 1))) (fun _ _ => rfl) h1'
      have hg := Except.ok.inj h
      have hall2 := forall₂_trans (lowerNames_forall (f.drop 1)) (forall₂_trans a2 (rename_forall arbinNames g1))
      rw [hg] at hall2
      have e1 : (f.drop 1)[pre.length]? = some a := by rw [hf]; simp
      have hlen : pre.length = pre'.length := h1.length_eq
      have e2 : (pre' ++ b :: post')[pre.length]? = some b := by rw [hlen]; simp
      have hget : ∀ {α β : Type} {R : α → β → Prop} {l : List α} {m : List β}, List.Forall₂ R l m → ∀ (i : Nat) x y,
          l[i]? = some x → m[i]? = some y → R x y := by
        intro α β R l m hR
        induction hR with
        | nil => intro i x y hx; simp at hx
        | cons h _ ih =>
          intro i x y hx hy
          cases i with
          | zero => simp at hx hy; subst hx; subst hy; exact h
          | succ i => simp at hx hy; exact ih i x y hx hy
      obtain ⟨p, ⟨hp1, hp2⟩, q, ⟨_, hq2, _⟩, _, hr2⟩ := hget hall2 _ _ _ e1 e2
      have ep : p.1 = "datetime" := (lowerOf_unique hp1).trans (lowerOf_unique hl).symm
      have := hq2 .float32 (by rw [ep]; decide +kernel) (by
        rw [ep]; apply eq_false_of_ne_true; intro hc; exact hgap ((hasNull_lower _ _).mp hc))
      rw [hr2, ← hcells, ← hp2]
      exact this

/-- the relation of a recent time and the instant that is stored -/
theorem arbin_instants {f g : Frame} {cells is : List Cell} (h : arbinRead f = .ok (g, is)) (hc : TimeColumn f cells)
    (hr : ∀ c ∈ cells, ∃ t, c = .num t ∧ Recent t) :
    List.Forall₂ (fun c i => ∃ t, c = .num t ∧ i = .num ((128000000 * rne (t / 128) : Int) : Rat)) cells is := by
  unfold arbinRead at h
  split at h
  · cases h
  · next g' hg =>
    obtain ⟨ts, h1, h2, h3⟩ := arbin_time_column hg hc
    rw [h1] at h
    simp only at h
    split at h
    · cases h
    · next is' his =>
      cases h
      have hn : Cell.nan ∉ cells := by
        intro hx; obtain ⟨t, ht, _⟩ := hr _ hx; cases ht
      have a1 := castColumn_ok (h3 hn)
      have a2 := instants_ok his
      have a3 := forall₂_trans a1 a2
      clear h1 h2 h3 his hn a1 a2 hc
      induction a3 with
      | nil => exact .nil
      | @cons c i l m h4 _ ih =>
        refine .cons ?_ (ih (fun c hc => hr c (List.mem_cons_of_mem _ hc)))
        obtain ⟨t, rfl, ht⟩ := hr c (List.mem_cons_self ..)
        obtain ⟨s, hs1, hs2⟩ := h4
        refine ⟨t, rfl, ?_⟩
        simp only [castCell, Except.ok.injEq] at hs1
        rw [(single_recent t ht).1] at hs1
        subst hs1
        simp only [instant, Except.ok.injEq] at hs2
        rw [← hs2, show (128 * (rne (t / 128) : Rat) * 1000000) = ((128000000 * rne (t / 128) : Int) : Rat) by push_cast; ring, rne_int]

/-! ### Accuracy -/

theorem nearest_close (p : Nat) (hp : 2 ≤ p) (emin : Int) (x y : Rat) (h : IsNearestFloat p emin x y) (hx : (2 : Rat) ^ emin ≤ |x|) :
    |x - y| ≤ |x| * (2 : Rat) ^ (-(p : Int)) := by
  have hx0 : x ≠ 0 := by rintro rfl; rw [abs_zero] at hx; linarith [two_zpow_pos emin]
  let m : Fmt := ⟨p, emin, 0⟩
  have h1 := h.2.1 _ (rounded_float m (by show 1 ≤ p; omega) x hx0)
  have h2 := rounded_near m x
  have he := expo_spec x hx0
  have hle : emin ≤ expo x := by
    have : emin < expo x + 1 := (zpow_lt_zpow_iff_right₀ (by norm_num : (1 : Rat) < 2)).mp (lt_of_le_of_lt hx he.2)
    omega
  have hu : ulpOf m x / 2 = 2 ^ expo x * (2 : Rat) ^ (-(p : Int)) := by
    unfold ulpOf
    show (2 : Rat) ^ (max (expo x) emin - ((p : Int) - 1)) / 2 = _
    rw [max_eq_left hle, ← two_zpow_add, show expo x - ((p : Int) - 1) = (expo x + -(p : Int)) + 1 by ring, two_zpow_add _ 1]
    norm_num
  have := mul_le_mul_of_nonneg_right he.1 (two_zpow_pos (-(p : Int))).le
  linarith

theorem nearest_exact (p : Nat) (emin : Int) (x y : Rat) (h : IsNearestFloat p emin x y) (hx : IsFloat p emin x) : y = x := by
  have := h.2.1 x hx
  rw [sub_self, abs_zero] at this
  have := abs_nonpos_iff.mp this
  linarith

theorem int_isFloat (p : Nat) (hp : 1 ≤ p) (emin : Int) (he : emin - ((p : Int) - 1) ≤ 0) (n : Int) (hn : |n| ≤ 2 ^ p) : IsFloat p emin (n : Rat) := by
  have := float_of_le p hp emin n 0 hn he
  simpa using this

theorem whole_int (n m : Int) (h : IsWhole (n : Rat) m) : m = n := by
  obtain ⟨h1, h2, h3⟩ := h
  have e1 : |m| ≤ |n| := by exact_mod_cast h1
  have e2 : |n| < |m| + 1 := by exact_mod_cast h2
  have e3 : 0 ≤ m * n := by exact_mod_cast h3
  have e4 : |m| = |n| := by omega
  rcases abs_eq_abs.mp e4 with h | h
  · exact h
  · subst h
    have : n = 0 := by nlinarith [mul_self_nonneg n]
    subst this; rfl

end Beep.Casts
