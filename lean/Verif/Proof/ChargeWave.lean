import Verif.Spec.ChargeWave
import Verif.Proof.Waveform
import Verif.Proof.Interp
/-
Lemmas about the model of driving and charging waveforms.
-/
namespace Beep.Proof.ChargeWave
open Beep Pandas ChargeWave Spec.ChargeWave

theorem heaviside_neg {x : Rat} (h : x < 0) : heaviside x = 0 := by simp [heaviside, h]
theorem heaviside_zero : heaviside 0 = 1 / 2 := by simp [heaviside]
theorem heaviside_pos {x : Rat} (h : 0 < x) : heaviside x = 1 := by
  simp [heaviside, not_lt.mpr h.le, h.ne']

/-! ### windows -/

theorem windows_below (mesh rates : List Rat) (soc : Rat) (h : ∀ m ∈ mesh, soc < m) :
    windows mesh rates soc = 0 := by
  induction mesh generalizing rates with
  | nil => rfl
  | cons m₁ ms ih =>
    cases ms with
    | nil => rfl
    | cons m₂ ms =>
      cases rates with
      | nil => rfl
      | cons r rs =>
        rw [windows, ih _ (fun m hm => h m (List.mem_cons_of_mem _ hm)),
          heaviside_neg (sub_neg.mpr (h m₁ List.mem_cons_self))]
        ring

theorem windows_start (m₁ m₂ : Rat) (ms : List Rat) (r : Rat) (rs : List Rat)
    (h : (m₁ :: m₂ :: ms).Pairwise (· < ·)) : windows (m₁ :: m₂ :: ms) (r :: rs) m₁ = r / 2 := by
  rw [List.pairwise_cons] at h
  rw [windows, windows_below _ _ _ h.1, sub_self, heaviside_zero,
    heaviside_pos (sub_pos.mpr (h.1 m₂ List.mem_cons_self))]
  ring

theorem windows_skip (m₁ m₂ : Rat) (ms : List Rat) (r : Rat) (rs : List Rat) (soc : Rat)
    (h : m₂ < soc) : windows (m₁ :: m₂ :: ms) (r :: rs) soc = windows (m₂ :: ms) rs soc := by
  rw [windows, heaviside_neg (sub_neg.mpr h)]
  ring

theorem windows_inside (mesh rates : List Rat) (i : Nat) (soc a b r : Rat)
    (hm : mesh.Pairwise (· < ·)) (ha : mesh[i]? = some a) (hb : mesh[i + 1]? = some b)
    (hr : rates[i]? = some r) (h1 : a < soc) (h2 : soc < b) : windows mesh rates soc = r := by
  induction i generalizing mesh rates with
  | zero =>
    match mesh, rates, ha, hb, hr with
    | m₁ :: m₂ :: ms, r' :: rs, ha, hb, hr =>
      simp only [List.getElem?_cons_zero, Option.some.injEq, List.getElem?_cons_succ] at ha hb hr
      subst ha; subst hb; subst hr
      rw [List.pairwise_cons, List.pairwise_cons] at hm
      rw [windows, windows_below (m₂ :: ms) rs soc, heaviside_pos (sub_pos.mpr h1),
        heaviside_pos (sub_pos.mpr h2)]
      · ring
      · intro m hm'
        rcases List.mem_cons.mp hm' with h | h
        · rw [h]; exact h2
        · exact lt_trans h2 (hm.2.1 m h)
  | succ i ih =>
    match mesh, rates, ha, hb, hr with
    | m₁ :: m₂ :: ms, r' :: rs, ha, hb, hr =>
      rw [List.pairwise_cons] at hm
      have hle : m₂ < soc := by
        refine lt_of_le_of_lt ?_ h1
        rw [List.getElem?_cons_succ] at ha
        rcases List.mem_cons.mp (List.mem_of_getElem? ha) with h | h
        · exact h.ge
        · exact ((List.pairwise_cons.mp hm.2).1 a h).le
      rw [windows_skip _ _ _ _ _ _ hle]
      exact ih (m₂ :: ms) rs hm.2 (by simpa using ha) (by simpa using hb) (by simpa using hr)

theorem windows_at (mesh rates : List Rat) (i : Nat) (soc r r' : Rat)
    (hm : mesh.Pairwise (· < ·)) (ha : mesh[i + 1]? = some soc) (hl : i + 2 < mesh.length)
    (hr : rates[i]? = some r) (hr' : rates[i + 1]? = some r') :
    windows mesh rates soc = (r + r') / 2 := by
  induction i generalizing mesh rates with
  | zero =>
    match mesh, rates, ha, hl, hr, hr' with
    | m₁ :: m₂ :: m₃ :: ms, q :: q' :: rs, ha, hl, hr, hr' =>
      simp only [List.getElem?_cons_zero, Option.some.injEq, List.getElem?_cons_succ] at ha hr hr'
      subst ha; subst hr; subst hr'
      rw [List.pairwise_cons] at hm
      rw [windows, windows_start _ _ _ _ _ hm.2, sub_self, heaviside_zero,
        heaviside_pos (sub_pos.mpr (hm.1 m₂ List.mem_cons_self))]
      ring
    | [_, _], _, _, hl, _, _ => simp at hl
    | [_], _, ha, _, _, _ => simp at ha
    | [], _, ha, _, _, _ => simp at ha
    | _ :: _ :: _ :: _, [_], _, _, _, hr' => simp at hr'
    | _ :: _ :: _ :: _, [], _, _, hr, _ => simp at hr
  | succ i ih =>
    match mesh, rates, ha, hl, hr, hr' with
    | m₁ :: m₂ :: ms, q :: rs, ha, hl, hr, hr' =>
      rw [List.pairwise_cons] at hm
      have hlt : m₂ < soc := by
        refine (List.pairwise_cons.mp hm.2).1 soc ?_
        simp only [List.getElem?_cons_succ] at ha
        exact List.mem_of_getElem? ha
      rw [windows_skip _ _ _ _ _ _ hlt]
      exact ih (m₂ :: ms) rs hm.2 (by simpa using ha) (by simp only [List.length_cons] at hl ⊢; omega)
        (by simpa using hr) (by simpa using hr')
    | [_], _, _, hl, _, _ => simp at hl
    | [], _, _, hl, _, _ => simp at hl
    | _ :: _ :: _, [], _, _, hr, _ => simp at hr

theorem windows_end (mesh rates : List Rat) (soc r : Rat) (hm : mesh.Pairwise (· < ·))
    (h2 : 2 ≤ mesh.length) (hl : mesh.getLast? = some soc) (hr : rates[mesh.length - 2]? = some r) :
    windows mesh rates soc = r / 2 := by
  induction mesh generalizing rates with
  | nil => simp at h2
  | cons m₁ ms ih =>
    match ms, rates, hr with
    | [], _, _ => simp at h2
    | [m₂], q :: rs, hr =>
      simp only [List.getLast?_cons_cons, List.getLast?_singleton, Option.some.injEq] at hl
      simp only [List.length_cons, List.length_nil, Nat.reduceAdd, Nat.sub_self,
        List.getElem?_cons_zero, Option.some.injEq] at hr
      subst hl; subst hr
      rw [List.pairwise_cons] at hm
      rw [windows, sub_self, heaviside_zero, heaviside_pos (sub_pos.mpr (hm.1 _ List.mem_cons_self))]
      simp only [windows]
      ring
    | m₂ :: m₃ :: ms, q :: rs, hr =>
      rw [List.pairwise_cons] at hm
      have hlt : m₂ < soc := by
        refine (List.pairwise_cons.mp hm.2).1 soc ?_
        rw [List.getLast?_cons_cons, List.getLast?_cons_cons] at hl
        exact List.mem_of_getLast? hl
      rw [windows_skip _ _ _ _ _ _ hlt]
      exact ih rs hm.2 (by simp) (by rw [← hl, List.getLast?_cons_cons (a := m₁)]) (by simpa using hr)
    | _ :: _, [], hr => simp at hr

/-! ### the points of the curve -/

theorem socVector_get (w : Wave) (k : Nat) (hk : k < 1000) :
    (socVector w)[k]? = some (socAt w k) := by
  unfold socVector socPoints
  rw [Interp.getElem?_linspace _ _ _ (by decide) _ hk]
  unfold socAt share
  norm_num

theorem length_socVector (w : Wave) : (socVector w).length = 1000 := Interp.length_linspace _ _ _

theorem socAt_last (w : Wave) : socAt w 999 = w.socF := by
  unfold socAt share; push_cast; ring

theorem multistep_ok {w : Wave} {rates mesh out : List Rat} (h : multistep w rates mesh = .ok out) :
    2 ≤ mesh.length ∧ mesh.length - 1 ≤ rates.length ∧ out = (socVector w).map (rateAt w rates mesh) := by
  unfold multistep at h
  split at h
  · cases h
  · split at h
    · cases h
    · exact ⟨by omega, by omega, (Except.ok.inj h).symm⟩

theorem multistep_get {w : Wave} {rates mesh out : List Rat} (h : multistep w rates mesh = .ok out)
    {k : Nat} (hk : k < 1000) : out[k]? = some (rateAt w rates mesh (socAt w k)) := by
  rw [(multistep_ok h).2.2, List.getElem?_map, socVector_get w k hk]; rfl

theorem getLastD_eq {l : List Rat} {x : Rat} (h : l.getLast? = some x) : l.getLastD 0 = x := by
  rw [List.getLastD_eq_getLast?, h]; rfl

theorem rateAt_before {w : Wave} {rates mesh : List Rat} (hd : Divides w mesh) {soc : Rat}
    (h : soc < w.socF) : rateAt w rates mesh soc = windows mesh rates soc := by
  unfold rateAt
  rw [getLastD_eq hd.2.2.1, heaviside_neg (sub_neg.mpr h)]
  ring

theorem rateAt_end {w : Wave} {rates mesh : List Rat} (hd : Divides w mesh) :
    rateAt w rates mesh w.socF = windows mesh rates w.socF + w.finalRate / 4 := by
  unfold rateAt
  rw [getLastD_eq hd.2.2.1, sub_self, heaviside_zero]
  ring

theorem le_last {l : List Rat} (h : l.Pairwise (· < ·)) {x y : Rat} (hx : x ∈ l)
    (hl : l.getLast? = some y) : x ≤ y := by
  induction l with
  | nil => simp at hx
  | cons a l ih =>
    cases l with
    | nil =>
      simp only [List.mem_singleton] at hx
      simp only [List.getLast?_singleton, Option.some.injEq] at hl
      rw [hx, hl]
    | cons b l =>
      rw [List.pairwise_cons] at h
      rw [List.getLast?_cons_cons] at hl
      rcases List.mem_cons.mp hx with e | e
      · rw [e]; exact (h.1 y (List.mem_of_getLast? hl)).le
      · exact ih h.2 e hl

/-- a state of charge of the range is at the start, inside a window, between two windows or at the end -/
theorem locate (l : List Rat) (h : l.Pairwise (· < ·)) (a z x : Rat) (ha : l.head? = some a)
    (hz : l.getLast? = some z) (h2 : 2 ≤ l.length) (h1 : a < x) (hx : x < z) :
    (∃ i : Nat, i + 1 < l.length ∧ Inside l i x) ∨ (∃ i : Nat, i + 2 < l.length ∧ l[i + 1]? = some x) := by
  induction l generalizing a with
  | nil => simp at h2
  | cons m l ih =>
    cases l with
    | nil => simp at h2
    | cons m₂ l =>
      simp only [List.head?_cons, Option.some.injEq] at ha
      subst ha
      rw [List.getLast?_cons_cons] at hz
      rcases lt_trichotomy x m₂ with hlt | heq | hgt
      · exact Or.inl ⟨0, by simp, m, m₂, rfl, rfl, h1, hlt⟩
      · refine Or.inr ⟨0, ?_, by rw [heq]; rfl⟩
        cases l with
        | nil =>
          simp only [List.getLast?_singleton, Option.some.injEq] at hz
          rw [heq, hz] at hx; exact absurd hx (lt_irrefl _)
        | cons _ _ => simp
      · have hl2 : 2 ≤ (m₂ :: l).length := by
          cases l with
          | nil =>
            simp only [List.getLast?_singleton, Option.some.injEq] at hz
            rw [hz] at hgt; exact absurd hx (not_lt.mpr hgt.le)
          | cons _ _ => simp
        rcases ih (List.pairwise_cons.mp h).2 m₂ rfl hz hl2 hgt with ⟨i, hi, p, q, hp, hq, h3, h4⟩ | ⟨i, hi, hp⟩
        · exact Or.inl ⟨i + 1, by simpa using hi, p, q, by simpa using hp, by simpa using hq, h3, h4⟩
        · exact Or.inr ⟨i + 1, by simp only [List.length_cons] at hi ⊢; omega, by simpa using hp⟩

/-- the rates of the curve are bounded by the requested ones -/
theorem rateAt_bounds {w : Wave} {rates mesh : List Rat} (hd : Divides w mesh) {lo hi : Rat}
    (hlo : 0 ≤ lo) (hn : mesh.length - 1 ≤ rates.length)
    (hr : ∀ r ∈ rates, lo ≤ r ∧ r ≤ hi) (hf : lo ≤ w.finalRate ∧ w.finalRate ≤ hi) {soc : Rat}
    (h1 : w.socI ≤ soc) (h2 : soc ≤ w.socF) :
    lo / 2 ≤ rateAt w rates mesh soc ∧ rateAt w rates mesh soc ≤ hi := by
  obtain ⟨hp, hh, hl, hlen⟩ := hd
  have hget : ∀ i : Nat, i + 1 < mesh.length → ∃ r, rates[i]? = some r ∧ lo ≤ r ∧ r ≤ hi := by
    intro i hi'
    have : i < rates.length := by omega
    exact ⟨rates[i], List.getElem?_eq_getElem this, hr _ (List.getElem_mem this)⟩
  rcases eq_or_lt_of_le h2 with e | e
  · obtain ⟨r, hr1, hr2, hr3⟩ := hget (mesh.length - 2) (by omega)
    rw [e, rateAt_end ⟨hp, hh, hl, hlen⟩, windows_end mesh rates w.socF r hp hlen hl hr1]
    constructor <;> linarith
  · rw [rateAt_before ⟨hp, hh, hl, hlen⟩ e]
    rcases eq_or_lt_of_le h1 with e1 | e1
    · obtain ⟨r, hr1, hr2, hr3⟩ := hget 0 (by omega)
      match mesh, rates, hh, hlen, hr1, hp with
      | m₁ :: m₂ :: ms, q :: rs, hh, _, hr1, hp =>
        simp only [List.head?_cons, Option.some.injEq, List.getElem?_cons_zero] at hh hr1
        rw [← e1, ← hh, windows_start _ _ _ _ _ hp, hr1]
        constructor <;> linarith
    · rcases locate mesh hp _ _ soc hh hl hlen e1 e with ⟨i, hi', a, b, ha, hb, h3, h4⟩ | ⟨i, hi', ha⟩
      · obtain ⟨r, hr1, hr2, hr3⟩ := hget i hi'
        rw [windows_inside mesh rates i soc a b r hp ha hb hr1 h3 h4]
        constructor <;> linarith
      · obtain ⟨r, hr1, hr2, hr3⟩ := hget i (by omega)
        obtain ⟨r', hr1', hr2', hr3'⟩ := hget (i + 1) (by omega)
        rw [windows_at mesh rates i soc r r' hp ha hi' hr1 hr1']
        constructor <;> linarith

/-! ### times -/

/-- an arithmetic progression -/
def arith (a h : Rat) : Nat → List Rat
  | 0 => []
  | n + 1 => a :: arith (a + h) h n

theorem length_arith (a h : Rat) (n : Nat) : (arith a h n).length = n := by
  induction n generalizing a with
  | zero => rfl
  | succ n ih => simp [arith, ih]

theorem arith_get (a h : Rat) (n k : Nat) (hk : k < n) : (arith a h n)[k]? = some (a + k * h) := by
  induction n generalizing a k with
  | zero => omega
  | succ n ih =>
    cases k with
    | zero => simp [arith]
    | succ k =>
      simp only [arith, List.getElem?_cons_succ]
      rw [ih _ _ (by omega)]
      push_cast
      congr 1
      ring

theorem socVector_arith (w : Wave) : socVector w = arith w.socI (share w) 1000 := by
  apply List.ext_getElem?
  intro k
  by_cases hk : k < 1000
  · rw [socVector_get w k hk, arith_get _ _ _ _ hk]; rfl
  · rw [List.getElem?_eq_none (by rw [length_socVector]; omega),
      List.getElem?_eq_none (by rw [length_arith]; omega)]

theorem gradientFrom_arith (a h : Rat) (n : Nat) :
    gradientFrom (a - h) (arith a h n) = List.replicate n h := by
  induction n generalizing a with
  | zero => rfl
  | succ n ih =>
    cases n with
    | zero => simp [arith, gradientFrom]
    | succ n =>
      have := ih (a + h)
      rw [add_sub_cancel_right] at this
      simp only [arith] at this ⊢
      rw [gradientFrom, this, List.replicate_succ (n := n + 1)]
      congr 1
      ring

theorem gradient_arith (a h : Rat) (n : Nat) : gradient (arith a h (n + 2)) = List.replicate (n + 2) h := by
  have := gradientFrom_arith (a + h) h (n + 1)
  rw [add_sub_cancel_right] at this
  simp only [arith] at this ⊢
  rw [gradient, this, List.replicate_succ (n := n + 1)]
  congr 1
  ring

theorem cumsumFrom_get (c : Rat) (l : List Rat) (k : Nat) (hk : k < l.length) :
    (cumsumFrom c l)[k]? = some (c + (l.take (k + 1)).sum) := by
  induction l generalizing c k with
  | nil => simp at hk
  | cons x l ih =>
    cases k with
    | zero => simp [cumsumFrom]
    | succ k =>
      simp only [cumsumFrom, List.getElem?_cons_succ]
      rw [ih _ _ (by simpa using hk)]
      simp only [List.take_succ_cons, List.sum_cons]
      congr 1
      ring

theorem length_cumsumFrom (c : Rat) (l : List Rat) : (cumsumFrom c l).length = l.length := by
  induction l generalizing c with
  | nil => rfl
  | cons x l ih => simp [cumsumFrom, ih]

theorem zip_replicate_map (l : List Rat) (h : Rat) (n : Nat) (hn : l.length = n) :
    (l.zip (List.replicate n h)).map (fun p => 1 / p.1 * p.2) = l.map (fun c => h / c) := by
  subst hn
  induction l with
  | nil => rfl
  | cons x l ih =>
    simp only [List.length_cons, List.replicate_succ, List.zip_cons_cons, List.map_cons, ih]
    congr 1
    ring

theorem sum_mul (l : List Rat) (c : Rat) : l.sum * c = (l.map (fun x => x * c)).sum := by
  induction l with
  | nil => simp
  | cons x l ih => simp only [List.sum_cons, List.map_cons, ← ih]; ring

theorem length_timeVector (w : Wave) (I : List Rat) (hI : I.length = 1000) :
    (timeVector (socVector w) I).length = 1000 := by
  unfold timeVector
  rw [socVector_arith, gradient_arith _ _ 998, List.length_map, length_cumsumFrom,
    zip_replicate_map I _ _ hI, List.length_map, hI]

theorem timeVector_get (w : Wave) (I : List Rat) (hI : I.length = 1000) (k : Nat) (hk : k < 1000) :
    (timeVector (socVector w) I)[k]? = some (elapsed w I k) := by
  unfold timeVector
  rw [socVector_arith, gradient_arith _ _ 998, zip_replicate_map I _ _ hI, List.getElem?_map,
    cumsumFrom_get _ _ _ (by rw [List.length_map, hI]; exact hk)]
  simp only [Option.map_some, Option.some.injEq, zero_add]
  unfold elapsed
  rw [sum_mul, ← List.map_take, List.map_map]
  congr 1
  apply List.map_congr_left
  intro c _
  simp only [Function.comp_def]
  ring

theorem elapsed_succ (w : Wave) (I : List Rat) (k : Nat) (c : Rat) (h : I[k + 1]? = some c) :
    elapsed w I (k + 1) = elapsed w I k + 3600 * share w / c := by
  obtain ⟨hk, rfl⟩ := List.getElem?_eq_some_iff.mp h
  unfold elapsed
  rw [List.take_succ_eq_append_getElem hk, List.map_append, List.sum_append]
  simp

theorem elapsed_zero (w : Wave) (I : List Rat) (c : Rat) (h : I[0]? = some c) :
    elapsed w I 0 = 3600 * share w / c := by
  cases I with
  | nil => simp at h
  | cons x I =>
    simp only [List.getElem?_cons_zero, Option.some.injEq] at h
    subst h
    simp [elapsed]

theorem elapsed_lt (w : Wave) (I : List Rat) (hs : 0 < share w) (hp : ∀ c ∈ I, 0 < c) {i j : Nat}
    (hij : i < j) (hj : j < I.length) : elapsed w I i < elapsed w I j := by
  induction j with
  | zero => omega
  | succ j ih =>
    have hc := List.getElem?_eq_getElem hj
    have hpos : 0 < 3600 * share w / I[j + 1] :=
      div_pos (by positivity) (hp _ (List.getElem_mem hj))
    rw [elapsed_succ w I j _ hc]
    rcases Nat.lt_succ_iff_lt_or_eq.mp hij with h | h
    · have := ih h (by omega)
      linarith
    · rw [h]; linarith

/-- the points of the curve, in the order of time -/
theorem points_sorted (w : Wave) (I : List Rat) (hI : I.length = 1000) (hs : 0 < share w)
    (hp : ∀ c ∈ I, 0 < c) :
    ((timeVector (socVector w) I).zip I).Pairwise (fun p q => p.1 < q.1) := by
  rw [List.pairwise_iff_getElem]
  intro i j hi hj hij
  simp only [List.length_zip, length_timeVector w I hI, hI, Nat.min_self] at hi hj
  simp only [List.getElem_zip]
  have e := fun k hk => (List.getElem?_eq_some_iff.mp (timeVector_get w I hI k hk)).2
  rw [e i hi, e j hj]
  exact elapsed_lt w I hs hp hij (by omega)

theorem points_get (w : Wave) (I : List Rat) (hI : I.length = 1000) (k : Nat) (c : Rat)
    (hc : I[k]? = some c) : ((timeVector (socVector w) I).zip I)[k]? = some (elapsed w I k, c) := by
  have hk : k < 1000 := by
    rw [← hI]; exact (List.getElem?_eq_some_iff.mp hc).1
  rw [List.getElem?_zip_eq_some]
  exact ⟨timeVector_get w I hI k hk, hc⟩

/-- the interpolated rate at a time -/
theorem interp1d_follows (w : Wave) (I : List Rat) (hI : I.length = 1000) (hs : 0 < share w)
    (hp : ∀ c ∈ I, 0 < c) (t : Rat) :
    Follows w I t (interp1d (timeVector (socVector w) I) I t) := by
  have hsort := points_sorted w I hI hs hp
  have hself : sortBy (fun p q : Rat × Rat => decide (p.1 ≤ q.1)) ((timeVector (socVector w) I).zip I) =
      (timeVector (socVector w) I).zip I :=
    sortBy_of_pairwise (hsort.imp (fun h => by simpa using h.le))
  have hget : ∀ k : Nat, k < 1000 → ∃ c, I[k]? = some c ∧
      ((timeVector (socVector w) I).zip I)[k]? = some (elapsed w I k, c) := by
    intro k hk
    have hc := List.getElem?_eq_getElem (l := I) (i := k) (by omega)
    exact ⟨_, hc, points_get w I hI k _ hc⟩
  have hlen : ((timeVector (socVector w) I).zip I).length = 1000 := by
    rw [List.length_zip, length_timeVector w I hI, hI]; rfl
  unfold interp1d
  rw [hself]
  generalize hz : (timeVector (socVector w) I).zip I = pts at hsort hget hlen
  match pts, hlen with
  | (x0, y0) :: rest, hlen =>
    obtain ⟨c0, hc0, hg0⟩ := hget 0 (by decide)
    simp only [List.getElem?_cons_zero, Option.some.injEq, Prod.mk.injEq] at hg0
    obtain ⟨hx0, hy0⟩ := hg0
    obtain ⟨cl, hcl, hgl⟩ := hget 999 (by decide)
    have hlast : rest.getLast? = some (elapsed w I 999, cl) := by
      rw [List.getLast?_eq_getElem?]
      simp only [List.length_cons] at hlen
      have : rest.length - 1 = 998 := by omega
      rw [this]
      rw [List.getElem?_cons_succ] at hgl
      exact hgl
    simp only [hlast, Option.map_some, Option.getD_some]
    split
    · rename_i h
      left
      rw [hx0] at h
      refine ⟨h, ?_⟩
      rw [hc0]
      cases I with
      | nil => simp at hc0
      | cons a I =>
        simp only [List.getElem?_cons_zero] at hc0
        simp [Option.some.inj hc0]
    · rename_i h
      split
      · rename_i h'
        right; right
        rw [hI]
        refine ⟨h', ?_⟩
        have : I.getLast? = some cl := by rw [List.getLast?_eq_getElem?, hI]; exact hcl
        rw [this, getLastD_eq this]
      · rename_i h'
        right; left
        rw [hx0] at h
        -- the interval containing `t`
        have hex : ∃ k : Nat, k < 999 ∧ elapsed w I k ≤ t ∧ t ≤ elapsed w I (k + 1) := by
          have hind : ∀ n : Nat, n < 1000 → elapsed w I 0 ≤ t → t ≤ elapsed w I n →
              n = 0 ∨ ∃ k : Nat, k < n ∧ elapsed w I k ≤ t ∧ t ≤ elapsed w I (k + 1) := by
            intro n
            induction n with
            | zero => intros; exact Or.inl rfl
            | succ n ih =>
              intro hn h1 h2
              right
              by_cases h3 : elapsed w I n ≤ t
              · exact ⟨n, by omega, h3, h2⟩
              · rcases ih (by omega) h1 (not_le.mp h3).le with e | ⟨k, hk, h4, h5⟩
                · subst e; exact absurd h1 h3
                · exact ⟨k, by omega, h4, h5⟩
          rcases hind 999 (by decide) (not_lt.mp h) (not_lt.mp h') with e | e
          · exact absurd e (by decide)
          · exact e
        obtain ⟨k, hk, h1, h2⟩ := hex
        obtain ⟨a, ha, hga⟩ := hget k (by omega)
        obtain ⟨b, hb, hgb⟩ := hget (k + 1) (by omega)
        refine ⟨k, a, b, ha, hb, h1, h2, ?_⟩
        have hlt : elapsed w I k < elapsed w I (k + 1) := elapsed_lt w I hs hp (Nat.lt_succ_self k) (by omega)
        rw [Interp.interpFrom_between x0 y0 rest hsort _ a _ b t (List.mem_of_getElem? hga)
          (List.mem_of_getElem? hgb) hlt ?_ h1 h2]
        · have : elapsed w I (k + 1) - elapsed w I k ≠ 0 := (sub_pos.mpr hlt).ne'
          field_simp
          ring
        · intro z hz'
          obtain ⟨j, hj⟩ := List.mem_iff_getElem?.mp hz'
          have hj' : j < 1000 := by
            have := (List.getElem?_eq_some_iff.mp hj).1
            rw [hlen] at this; exact this
          obtain ⟨c, hc, hgc⟩ := hget j hj'
          rw [hj] at hgc
          cases hgc
          simp only
          rcases Nat.lt_or_ge k j with h3 | h3
          · right
            rcases Nat.eq_or_lt_of_le h3 with e | e
            · rw [← e]
            · exact (elapsed_lt w I hs hp e (by omega)).le
          · left
            rcases Nat.eq_or_lt_of_le h3 with e | e
            · rw [← e]
            · exact (elapsed_lt w I hs hp e (by omega)).le

end Beep.Proof.ChargeWave
