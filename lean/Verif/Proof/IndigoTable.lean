import Verif.Proof.CastsTime
import Verif.Proof.Pandas
import Verif.Model.IndigoTable
import Verif.Spec.IndigoTable
/-
Lemmas about the records of Indigo files.
-/
namespace Beep.IndigoTable
open Beep Beep.Casts Beep.Spec.Casts Beep.Spec.IndigoTable

/-- rounding to a double changes a number below `2^k` by at most `2^(k-54)` -/
theorem double_near (k : Nat) (hk : k ≤ 1000) {x : Rat} (hx : |x| < 2 ^ k) :
    ∃ r, toFmt double x = .num r ∧ |x - r| ≤ (2 : Rat) ^ ((k : Int) - 54) := by
  by_cases h0 : x = 0
  · subst h0
    refine ⟨0, by simp [toFmt], ?_⟩
    rw [sub_zero, abs_zero]
    exact le_of_lt (two_zpow_pos _)
  · have he := (expo_spec x h0).1
    have hlt : (2 : Rat) ^ expo x < 2 ^ (k : Int) := lt_of_le_of_lt he (by rw [zpow_natCast]; exact hx)
    have hek : expo x < k := (zpow_lt_zpow_iff_right₀ (by norm_num)).mp hlt
    have hu : ulpOf double x ≤ (2 : Rat) ^ ((k : Int) - 53) := by
      unfold ulpOf double
      refine two_zpow_le ?_
      simp only
      omega
    have hhalf : (2 : Rat) ^ ((k : Int) - 53) / 2 = 2 ^ ((k : Int) - 54) := by
      rw [show (k : Int) - 53 = ((k : Int) - 54) + 1 by ring, two_zpow_add]; norm_num
    have hn : |x - rounded double x| ≤ (2 : Rat) ^ ((k : Int) - 54) := by
      have := rounded_near double x
      rw [← hhalf]
      linarith
    refine ⟨rounded double x, ?_, hn⟩
    rw [toFmt_eq double x h0, if_pos]
    have h1 : |rounded double x| ≤ |x| + |x - rounded double x| := by
      have := abs_sub_le (rounded double x) x 0
      rw [sub_zero, sub_zero, abs_sub_comm] at this
      linarith
    have h2 : (2 : Rat) ^ ((k : Int) - 54) ≤ 2 ^ (k : Int) := two_zpow_le (by omega)
    have h3 : (2 : Rat) ^ (k : Int) + 2 ^ (k : Int) = 2 ^ ((k : Int) + 1) := by rw [two_zpow_add]; norm_num; ring
    have h4 : (2 : Rat) ^ ((k : Int) + 1) ≤ 2 ^ (double.emax + 1) := two_zpow_le (by simp only [double]; omega)
    have h5 : |x| < (2 : Rat) ^ (k : Int) := by rw [zpow_natCast]; exact hx
    linarith

theorem trunc_near (x : Rat) : |x - (trunc x : Rat)| < 1 := by
  unfold trunc
  split
  · have h1 := Rat.floor_le x
    have h2 : x < (x.floor : Rat) + 1 := by have := Rat.lt_floor_add_one x; push_cast at this; exact this
    rw [abs_lt]; constructor <;> linarith
  · have h1 := Rat.floor_le (-x)
    have h2 : -x < ((-x).floor : Rat) + 1 := by have := Rat.lt_floor_add_one (-x); push_cast at this; exact this
    rw [abs_lt]; push_cast; constructor <;> linarith

theorem rne_of_near {p : Rat} {n : Int} (h : |p - n| < 1 / 2) : rne p = n := by
  have h1 := rne_near p
  have h2 : |(rne p : Rat) - n| < 1 := by
    have := abs_sub_le (rne p : Rat) p n
    rw [abs_sub_comm (rne p : Rat) p] at this
    linarith
  have h3 : |rne p - n| < 1 := by exact_mod_cast h2
  rw [Int.abs_lt_one_iff] at h3
  omega

theorem instant_exact {x : Rat} {n : Int} (hx : x = n) (hn : |n| < 2 ^ 33 * 10 ^ 6) : instant x = .ok n := by
  subst hx
  have hq : |(n : Rat) / 1000000| < 2 ^ 33 := by
    rw [abs_div, show |(1000000 : Rat)| = 1000000 by norm_num, div_lt_iff₀ (by norm_num)]
    have : ((|n| : Int) : Rat) < ((2 ^ 33 * 10 ^ 6 : Int) : Rat) := by exact_mod_cast hn
    push_cast at this
    norm_num at this ⊢
    exact this
  obtain ⟨q, e1, h1⟩ := double_near 33 (by norm_num) hq
  have ht := trunc_near q
  have hf : |(q - (trunc q : Rat)) * 1000000| < 2 ^ 20 := by
    rw [abs_mul, show |(1000000 : Rat)| = 1000000 by norm_num]
    norm_num
    linarith
  obtain ⟨p, e2, h2⟩ := double_near 20 (by norm_num) hf
  unfold instant
  rw [e1]
  simp only
  rw [e2]
  simp only [Except.ok.injEq]
  have key : rne p = n - trunc q * 1000000 := by
    apply rne_of_near
    have h1' : |(n : Rat) / 1000000 - q| ≤ 1 / 2097152 := by
      have : (2 : Rat) ^ (((33 : Nat) : Int) - 54) = 1 / 2097152 := by norm_num
      rw [this] at h1; exact h1
    have h2' : |(q - (trunc q : Rat)) * 1000000 - p| ≤ 1 / 17179869184 := by
      have : (2 : Rat) ^ (((20 : Nat) : Int) - 54) = 1 / 17179869184 := by norm_num
      rw [this] at h2; exact h2
    rw [abs_le] at h1' h2'
    push_cast
    rw [abs_lt]
    constructor <;> linarith [h1'.1, h1'.2, h2'.1, h2'.2]
  rw [key]; ring

theorem instants_exact {times : List Rat} (h : ∀ x ∈ times, Microseconds x) :
    ∃ isos, instants times = .ok isos ∧ isos.map (fun i : Int => (i : Rat)) = times := by
  induction times with
  | nil => exact ⟨[], rfl, rfl⟩
  | cons x xs ih =>
    obtain ⟨n, e, hn⟩ := h x (List.mem_cons_self ..)
    obtain ⟨is, h1, h2⟩ := ih (fun y hy => h y (List.mem_cons_of_mem _ hy))
    refine ⟨n :: is, ?_, ?_⟩
    · rw [instants, instant_exact e hn, h1]
    · rw [List.map_cons, h2, e]

/-! ### Columns -/

theorem newName_levels {n : String} (h : n ≠ "level_0") : newName [("level_0", "data_point")] n = n := by
  unfold newName
  rw [List.find?_cons]
  have : decide ("level_0" = n) = false := by simp; exact fun e => h e.symm
  simp [this]

theorem names_indigo (n : String) : Published indigo n (newName columnNames n) :=
  newName_published (by decide +kernel) (by decide +kernel) n

theorem fresh_get (n i : Nat) (hi : i < n) : (fresh n)[i]? = some ((i : Nat) : Rat) := by
  unfold fresh
  simp [hi]

theorem resetIndex_plain {index : Ingest.Column} {t : Table} (h : "index" ∉ t.map Prod.fst) :
    resetIndex index t = .ok (("index", index) :: t) := by
  have hb : (t.map Prod.fst).contains "index" = false := by
    rw [← Bool.not_eq_true, List.contains_iff_mem]; exact h
  unfold resetIndex
  simp only [hb, Bool.false_eq_true, if_false]

theorem resetIndex_second {index : Ingest.Column} {t : Table} (h : "index" ∈ t.map Prod.fst) (h2 : "level_0" ∉ t.map Prod.fst) :
    resetIndex index t = .ok (("level_0", index) :: t) := by
  have hb : (t.map Prod.fst).contains "index" = true := List.contains_iff_mem.mpr h
  have hb2 : (t.map Prod.fst).contains "level_0" = false := by
    rw [← Bool.not_eq_true, List.contains_iff_mem]; exact h2
  unfold resetIndex
  simp only [hb, if_true, hb2, Bool.false_eq_true, if_false]

theorem resetIndex_refused {index : Ingest.Column} {t : Table} (h : "index" ∈ t.map Prod.fst) (h2 : "level_0" ∈ t.map Prod.fst) :
    resetIndex index t = .error .valueError := by
  have hb : (t.map Prod.fst).contains "index" = true := List.contains_iff_mem.mpr h
  have hb2 : (t.map Prod.fst).contains "level_0" = true := List.contains_iff_mem.mpr h2
  unfold resetIndex
  simp only [hb, if_true, hb2]

end Beep.IndigoTable
