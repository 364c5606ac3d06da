import Verif.Props.Ingest
import Verif.Props.Growth
import Verif.Spec.BiologicTime
/-
C162 the times of Biologic records.
-/
namespace Beep.Props.BiologicTime
open Beep BiologicTime Beep.Spec.Ingest Beep.Spec.BiologicTime

theorem number_acc (ds : List Nat) (n : Nat) :
    ((ds.foldl (fun n k => n * 10 + k) n : Nat) : Rat) = (n + decimal ds) * 10 ^ ds.length := by
  induction ds generalizing n with
  | nil => simp [decimal]
  | cons k ks ih =>
    rw [List.foldl_cons, ih, decimal, List.length_cons]
    push_cast
    ring

theorem decimal_zeros (ds : List Nat) (n : Nat) : decimal (ds ++ List.replicate n 0) = decimal ds := by
  induction ds with
  | nil =>
    induction n with
    | zero => rfl
    | succ n ih => simp only [List.nil_append] at ih ⊢; simp [List.replicate_succ, decimal, ih]
  | cons k ks ih => simp [decimal, ih]

theorem micro_eq (ds : List Nat) (h : ds.length ≤ 6) : (micro ds : Rat) / 1000000 = decimal ds := by
  unfold micro number
  rw [number_acc, decimal_zeros]
  have : (ds ++ List.replicate (6 - ds.length) 0).length = 6 := by simp; omega
  rw [this]
  push_cast
  ring

theorem decimal_nonneg (ds : List Nat) : 0 ≤ decimal ds := by
  induction ds with
  | nil => simp [decimal]
  | cons k ks ih => rw [decimal]; positivity

theorem decimal_lt (ds : List Nat) (h : ∀ k ∈ ds, k < 10) : decimal ds < 1 := by
  induction ds with
  | nil => simp [decimal]
  | cons k ks ih =>
    rw [decimal]
    have h1 : k ≤ 9 := by have := h k (by simp); omega
    have h2 : (k : Rat) ≤ 9 := by exact_mod_cast h1
    have h3 := ih fun j hj => h j (by simp [hj])
    rw [div_lt_one (by norm_num)]
    linarith

theorem int_le {b t : Int} {q : Rat} (h0 : 0 ≤ q) (h1 : q < 1) : (b : Rat) ≤ t + q ↔ b ≤ t := by
  constructor
  · intro h
    have : (b : Rat) < ((t + 1 : Int) : Rat) := by push_cast; linarith
    have := Int.cast_lt.1 this
    omega
  · intro h
    have : (b : Rat) ≤ t := by exact_mod_cast h
    linarith

theorem lt_int {e t : Int} {q : Rat} (h0 : 0 ≤ q) (h1 : q < 1) : (t : Rat) + q < e ↔ t < e := by
  rw [← not_le, int_le h0 h1, not_le]

theorem valid_of (u : Rat) (x : Stamp) (h : ShowsAt u x) : valid x = true := by
  obtain ⟨h1, h2, h3, t, ⟨a, b, _⟩, -⟩ := h
  simp only [valid, Bool.and_eq_true, decide_eq_true_eq, List.all_eq_true]
  exact ⟨⟨(Ingest.valid_iff ..).2 ⟨a, b⟩, h1, h2⟩, h3⟩

theorem begins_unique (y a b : Int) (h : Begins y a) (h' : Begins y b) : a = b :=
  (Ingest.begins_eq y a h).trans (Ingest.begins_eq y b h').symm

theorem ends_unique (y a b : Int) (h : Ends y a) (h' : Ends y b) : a = b :=
  (Ingest.ends_eq y a h).trans (Ingest.ends_eq y b h').symm

open Classical in
theorem naive_shown (u : Rat) (x : Stamp) (h : ShowsAt u x) :
    naive x = .ok (u - (if Summer x.y u then 7 * 3600 else 8 * 3600)) := by
  have hv := valid_of u x h
  obtain ⟨h1, h2, h3, t, ⟨_, _, b, e, hb, he, hc⟩, rfl⟩ := h
  rw [naive, if_pos hv, micro_eq _ h2]
  have q0 := decimal_nonneg x.frac
  have q1 := decimal_lt x.frac h3
  have hS : Summer x.y (t + decimal x.frac) ↔ b ≤ t ∧ t < e := by
    constructor
    · rintro ⟨b', e', hb', he', k1, k2⟩
      rw [begins_unique _ _ _ hb hb', ends_unique _ _ _ he he']
      exact ⟨(int_le q0 q1).1 k1, (lt_int q0 q1).1 k2⟩
    · rintro ⟨k1, k2⟩
      exact ⟨b, e, hb, he, (int_le q0 q1).2 k1, (lt_int q0 q1).2 k2⟩
  congr 1
  rcases hc with ⟨c1, c2, c3⟩ | ⟨c1, c3⟩
  · rw [if_pos (hS.2 ⟨c1, c2⟩)]
    have : Beep.Ingest.seconds x.y x.m x.d x.h x.mi x.s = t - 7 * 3600 := by unfold Beep.Ingest.seconds; omega
    rw [this]
    push_cast
    ring
  · rw [if_neg fun k => c1 (hS.1 k)]
    have : Beep.Ingest.seconds x.y x.m x.d x.h x.mi x.s = t - 8 * 3600 := by unfold Beep.Ingest.seconds; omega
    rw [this]
    push_cast
    ring

open Classical in
theorem iso_shown (u : Rat) (x : Stamp) (h : ShowsAt u x) :
    iso x = .ok (if Repeated x.y u then u - 3600 else u) := by
  have hv := valid_of u x h
  obtain ⟨h1, h2, h3, t, hs, rfl⟩ := h
  have q0 := decimal_nonneg x.frac
  have q1 := decimal_lt x.frac h3
  have hc := Ingest.shown t x.y x.m x.d x.h x.mi x.s hs
  have hv' : Beep.Ingest.validStamp x.y x.m x.d x.h x.mi x.s = true := (Ingest.valid_iff ..).2 ⟨hs.1, hs.2.1⟩
  rw [Beep.Ingest.correctTimestamp, if_pos hv'] at hc
  simp only [Except.ok.injEq] at hc
  rw [iso, if_pos hv, micro_eq _ h2, hc]
  have hS : Repeated x.y (t + decimal x.frac) ↔
      Beep.Ingest.dstEnd x.y + 7 * 3600 ≤ t ∧ t < Beep.Ingest.dstEnd x.y + 8 * 3600 := by
    constructor
    · rintro ⟨e, he, k1, k2⟩
      have k := Ingest.ends_eq _ _ he
      have k2' : (t : Rat) + decimal x.frac < ((e + 3600 : Int) : Rat) := by push_cast; linarith
      have k3 := (int_le q0 q1).1 k1
      have k4 := (lt_int q0 q1).1 k2'
      omega
    · rintro ⟨k1, k2⟩
      refine ⟨_, Ingest.ends_exists x.y, (int_le q0 q1).2 k1, ?_⟩
      have : (t : Rat) + decimal x.frac < ((Beep.Ingest.dstEnd x.y + 8 * 3600 : Int) : Rat) := (lt_int q0 q1).2 k2
      push_cast at this ⊢
      linarith
  by_cases hr : Beep.Ingest.dstEnd x.y + 7 * 3600 ≤ t ∧ t < Beep.Ingest.dstEnd x.y + 8 * 3600
  · rw [if_pos hr, if_pos (hS.2 hr)]
    congr 1
    push_cast
    ring
  · rw [if_neg hr, if_neg fun k => hr (hS.1 k)]

theorem mapE_map {α β γ : Type} (f : β → Except Err γ) (g : α → γ) (us : List α) (xs : List β)
    (h : List.Forall₂ (fun u x => f x = .ok (g u)) us xs) : Summary.mapE f xs = .ok (us.map g) := by
  induction h with
  | nil => rfl
  | cons h _ ih => rw [Summary.mapE, h, ih]; rfl

/-- C162: outside the repeated hour `date_time_iso` is the instant at which the record was written, also
where a run lasts over the beginning or the end of daylight saving time -/
theorem C162_iso_partial (us : List Rat) (xs : List Stamp)
    (h : List.Forall₂ (fun u x => 2007 ≤ x.y ∧ ShowsAt u x ∧ ¬ Repeated x.y u) us xs) :
    ∃ times, standardize xs = .ok (us, times) := by
  have key : Summary.mapE iso xs = .ok us := by
    have := mapE_map iso id us xs (h.imp fun u x hx => by rw [iso_shown u x hx.2.1, if_neg hx.2.2]; rfl)
    simpa using this
  cases h with
  | nil => exact ⟨[], rfl⟩
  | @cons u x us xs hx ht =>
    classical
    have k : ∃ times, Summary.mapE (since x) (x :: xs) = .ok times := by
      have hall : List.Forall₂ (fun u x => ShowsAt u x) (u :: us) (x :: xs) :=
        .cons hx.2.1 (ht.imp fun _ _ k => k.2.1)
      have n0 := naive_shown u x hx.2.1
      generalize hl : x :: xs = l at hall
      generalize u :: us = ul at hall
      clear hl key ht
      induction hall with
      | nil => exact ⟨[], rfl⟩
      | cons h1 _ ih =>
        obtain ⟨ts, ih⟩ := ih
        rw [Summary.mapE, since, naive_shown _ _ h1, n0, ih]
        exact ⟨_, rfl⟩
    obtain ⟨times, k⟩ := k
    refine ⟨times, ?_⟩
    simp only [standardize, key, k]
    rfl

/-- C162: the test time of a record is the time since the first record where the clocks have not been
changed in between -/
theorem C162_test_time_partial (u : Rat) (x : Stamp) (us : List Rat) (xs : List Stamp)
    (h : List.Forall₂ (fun v z => 2007 ≤ z.y ∧ ShowsAt v z ∧ (Summer z.y v ↔ Summer x.y u)) (u :: us) (x :: xs)) :
    ∃ isos, standardize (x :: xs) = .ok (isos, (u :: us).map (fun v => v - u)) := by
  classical
  have hx : ShowsAt u x := by cases h with | cons a _ => exact a.2.1
  have k : Summary.mapE (since x) (x :: xs) = .ok ((u :: us).map (fun v => v - u)) := by
    refine mapE_map _ _ _ _ (h.imp fun v z hz => ?_)
    rw [since, naive_shown v z hz.2.1, naive_shown u x hx]
    simp only [hz.2.2]
    show Except.ok _ = _
    congr 1
    ring
  have i : ∃ isos, Summary.mapE iso (x :: xs) = .ok isos := by
    clear k hx
    generalize x :: xs = l at h
    generalize u :: us = ul at h
    induction h with
    | nil => exact ⟨[], rfl⟩
    | cons h1 _ ih =>
      obtain ⟨ts, ih⟩ := ih
      rw [Summary.mapE, iso_shown _ _ h1.2.1, ih]
      exact ⟨_, rfl⟩
  obtain ⟨isos, i⟩ := i
  refine ⟨isos, ?_⟩
  simp only [standardize, i, k]
  rfl

theorem times_of (u v : Rat) (x z : Stamp) (hx : ShowsAt u x) (hz : ShowsAt v z) (pre post : List Stamp)
    (isos times : List Rat) (h : standardize (x :: (pre ++ z :: post)) = .ok (isos, times)) (d : Rat)
    (hd : since x z = .ok d) : times[pre.length + 1]? = some d := by
  simp only [standardize] at h
  rcases i : Summary.mapE iso (x :: (pre ++ z :: post)) with e | is
  · rw [i] at h; cases h
  rw [i] at h
  rcases k : Summary.mapE (since x) (x :: (pre ++ z :: post)) with e | ts
  · rw [k] at h; cases h
  rw [k] at h
  have ht : ts = times := by
    have := Except.ok.inj h
    exact congrArg Prod.snd this
  subst ht
  clear h i
  rw [Summary.mapE] at k
  rcases f : since x x with e | a
  · rw [f] at k; cases k
  rw [f] at k
  rcases k2 : Summary.mapE (since x) (pre ++ z :: post) with e | bs
  · rw [k2] at k; cases k
  rw [k2] at k
  cases k
  clear f
  rw [List.getElem?_cons_succ]
  induction pre generalizing bs with
  | nil =>
    rw [List.nil_append, Summary.mapE, hd] at k2
    rcases k3 : Summary.mapE (since x) post with e | cs
    · rw [k3] at k2; cases k2
    rw [k3] at k2
    cases k2
    rfl
  | cons p pre ih =>
    rw [List.cons_append, Summary.mapE] at k2
    rcases k4 : since x p with e | c
    · rw [k4] at k2; cases k2
    rw [k4] at k2
    rcases k3 : Summary.mapE (since x) (pre ++ z :: post) with e | cs
    · rw [k3] at k2; cases k2
    rw [k3] at k2
    cases k2
    rw [List.length_cons, List.getElem?_cons_succ]
    exact ih cs k3

/-- C162 fails: of a run that starts in winter, every record in summer has a test time one hour too long,
and of a run that starts in summer, every record in winter has one that is one hour too short -/
theorem C162_changed_violated (u v : Rat) (x z : Stamp) (_hy : 2007 ≤ x.y) (_hy' : 2007 ≤ z.y)
    (hx : ShowsAt u x) (hz : ShowsAt v z) (pre post : List Stamp) (isos times : List Rat)
    (h : standardize (x :: (pre ++ z :: post)) = .ok (isos, times)) :
    (¬ Summer x.y u → Summer z.y v → times[pre.length + 1]? = some (v - u + 3600)) ∧
    (Summer x.y u → ¬ Summer z.y v → times[pre.length + 1]? = some (v - u - 3600)) := by
  classical
  constructor <;> intro k1 k2 <;>
  · refine times_of u v x z hx hz pre post isos times h _ ?_
    rw [since, naive_shown v z hz, naive_shown u x hx]
    simp only [k1, k2, if_true, if_false]
    show Except.ok _ = _
    congr 1
    ring

/-- C162 fails: of two records less than one hour apart the later one has the smaller test time if
daylight saving time ends between them -/
theorem C162_order_violated (u v w : Rat) (x z z' : Stamp) (_hy : 2007 ≤ x.y)
    (hx : ShowsAt u x) (hz : ShowsAt v z) (hz' : ShowsAt w z') (pre mid post : List Stamp) (isos times : List Rat)
    (hyy : z.y = z'.y) (e : Int) (he : Ends z.y e) (b : Int) (hb : Begins z.y b)
    (h0 : (b : Rat) ≤ v) (h1 : v < e) (h2 : e ≤ w) (h3 : w < v + 3600)
    (h : standardize (x :: (pre ++ z :: (mid ++ z' :: post))) = .ok (isos, times)) :
    ∃ s s', times[pre.length + 1]? = some s ∧ times[pre.length + mid.length + 2]? = some s' ∧ s' < s := by
  classical
  have S1 : Summer z.y v := ⟨b, e, hb, he, h0, h1⟩
  have S2 : ¬ Summer z'.y w := by
    rw [← hyy]
    rintro ⟨b', e', _, he', _, k⟩
    rw [ends_unique _ _ _ he' he] at k
    exact absurd h2 (not_le.2 k)
  have d1 : since x z = .ok (v - (7 * 3600) - (u - (if Summer x.y u then 7 * 3600 else 8 * 3600))) := by
    rw [since, naive_shown v z hz, naive_shown u x hx, if_pos S1]; rfl
  have d2 : since x z' = .ok (w - (8 * 3600) - (u - (if Summer x.y u then 7 * 3600 else 8 * 3600))) := by
    rw [since, naive_shown w z' hz', naive_shown u x hx, if_neg S2]; rfl
  refine ⟨v - (7 * 3600) - (u - (if Summer x.y u then 7 * 3600 else 8 * 3600)),
    w - (8 * 3600) - (u - (if Summer x.y u then 7 * 3600 else 8 * 3600)),
    times_of u v x z hx hz pre _ isos times h _ d1, ?_, ?_⟩
  · have h' : standardize (x :: ((pre ++ z :: mid) ++ z' :: post)) = .ok (isos, times) := by
      rw [← h]; simp
    have := times_of u w x z' hx hz' (pre ++ z :: mid) post isos times h' _ d2
    rw [← this]
    congr 1
    simp
    omega
  · linarith

/-- C162: a stamp that is no date and time, or is printed without or with more than six decimals, stops
the reading -/
theorem C162_refused (xs : List Stamp) (x : Stamp) (hx : x ∈ xs)
    (h : ¬ (IsDate x.y x.m x.d ∧ IsTime x.h x.mi x.s) ∨ x.frac = [] ∨ 6 < x.frac.length) :
    standardize xs = .error .valueError := by
  have hv : valid x = false := by
    rw [Bool.eq_false_iff]
    intro hv
    simp only [valid, Bool.and_eq_true, decide_eq_true_eq] at hv
    obtain ⟨⟨h1, h2, h3⟩, -⟩ := hv
    rcases h with h | h | h
    · exact h ((Ingest.valid_iff ..).1 h1)
    · rw [h] at h2; exact absurd h2 (by decide)
    · omega
  have k : Summary.mapE iso xs = .error .valueError := by
    induction xs with
    | nil => cases hx
    | cons a l ih =>
      rw [Summary.mapE]
      by_cases ha : valid a = true
      · rw [iso, if_pos ha]
        rcases List.mem_cons.1 hx with rfl | hx
        · rw [hv] at ha; cases ha
        · rw [ih hx]
      · rw [iso, if_neg ha]
  rw [standardize, k]
  rfl

/-- 9 March 2019, 23:00:00.25 and 10 March 2019, 3:30:00.5 -/
example : ShowsAt ((737127 * 24 + 31) * 3600 + 1 / 4) ⟨2019, 3, 9, 23, 0, 0, [2, 5]⟩ ∧
    ShowsAt ((737128 * 24 + 10) * 3600 + 1800 + 1 / 2) ⟨2019, 3, 10, 3, 30, 0, [5, 0, 0]⟩ := by
  have h1 := Ingest.begins_exists 2019
  have h2 := Ingest.ends_exists 2019
  have e1 : Beep.Ingest.dstStart 2019 = (737128 * 24 + 2) * 3600 := by decide
  have e2 : Beep.Ingest.dstEnd 2019 = (737366 * 24 + 2) * 3600 := by decide
  rw [e1] at h1
  rw [e2] at h2
  refine ⟨⟨by decide, by decide, by decide, (737127 * 24 + 31) * 3600, ⟨by decide, by decide, _, _, h1, h2, .inr ⟨by decide, by decide⟩⟩, by decide +kernel⟩,
    ⟨by decide, by decide, by decide, (737128 * 24 + 10) * 3600 + 1800, ⟨by decide, by decide, _, _, h1, h2, .inl ⟨by decide, by decide, by decide⟩⟩, by decide +kernel⟩⟩

/-- three and a half hours pass, but the test time says four and a half -/
example : standardize [⟨2019, 3, 9, 23, 0, 0, [2, 5]⟩, ⟨2019, 3, 10, 3, 30, 0, [5, 0, 0]⟩] =
    .ok ([(737127 * 24 + 31) * 3600 + 1 / 4, (737128 * 24 + 10) * 3600 + 1800 + 1 / 2], [0, 16200 + 1 / 4]) := by
  decide +kernel

/-- 3 November 2019: 1:50 daylight time, ten minutes later 1:00 standard time -/
example : standardize [⟨2019, 11, 3, 0, 50, 0, [0]⟩, ⟨2019, 11, 3, 1, 50, 0, [0]⟩, ⟨2019, 11, 3, 1, 0, 0, [0]⟩] =
    .ok ([(737366 * 24 + 7) * 3600 + 3000, (737366 * 24 + 8) * 3600 + 3000, (737366 * 24 + 8) * 3600], [0, 3600, 600]) := by
  decide +kernel

/-- a stamp without decimals -/
example : standardize [⟨2019, 11, 3, 0, 50, 0, []⟩] = .error .valueError := by decide +kernel

end Beep.Props.BiologicTime
