import Verif.Proof.Routing
/-
C58: file routing.
-/
namespace Beep.Props.Routing
open Beep Routing Spec.Routing Proof.Routing

/-- C58: the reader chosen is the first in the order of precedence whose pattern the name has; every
name with a pattern gets exactly one reader, and `ValueError` is raised exactly for the others. -/
theorem C58_routing (digit : Char → Bool) (hd : digit '\n' = false) (name : Str) :
    (∀ r, autoLoad digit name = .ok r ↔
      Pattern digit name r ∧ ∀ q, rank q < rank r → ¬ Pattern digit name q) ∧
    (autoLoad digit name = .error .valueError ↔ ∀ q, ¬ Pattern digit name q) ∧
    (∀ e, autoLoad digit name = .error e → e = .valueError) := by
  have h1 : (reMatch arbin name || reMatch fastCharge name) = true ↔ Pattern digit name .arbin := by
    rw [Bool.or_eq_true]; exact or_congr (containing_iff _ _ _) (containing_iff _ _ _)
  have h2 : (reMatch (maccor digit) name || reMatch xTesladiag name) = true ↔ Pattern digit name .maccor := by
    rw [Bool.or_eq_true]; exact or_congr (maccor_iff _ hd _) (containing_iff _ _ _)
  have h3 : reMatch indigo name = true ↔ Pattern digit name .indigo := has_iff _ _
  have h4 : reMatch biologic name = true ↔ Pattern digit name .biologic := biologic_iff _
  have h5 : reMatch neware name = true ↔ Pattern digit name .neware := containing_iff _ _ _
  have h6 : reMatch batteryArchive name = true ↔ Pattern digit name .batteryArchive := has_iff _ _
  have all : ∀ P : Reader → Prop, (∀ q, P q) ↔
      P .arbin ∧ P .maccor ∧ P .indigo ∧ P .biologic ∧ P .neware ∧ P .batteryArchive := by
    intro P
    constructor
    · intro h; exact ⟨h _, h _, h _, h _, h _, h _⟩
    · rintro ⟨a, b, c, d, e, f⟩ q; cases q <;> assumption
  unfold autoLoad
  simp only [h1, h2, h3, h4, h5, h6, all (fun q => ¬ Pattern digit name q)]
  refine ⟨?_, ?_, ?_⟩
  · intro r
    rw [all (fun q => rank q < rank r → ¬ Pattern digit name q)]
    cases r <;> (split_ifs <;> simp_all [rank])
  · split_ifs <;> simp_all
  · intro e
    split_ifs <;> simp
    intro h; exact h.symm

/-- ASCII digits -/
def ascii (c : Char) : Bool := c.isDigit

/-- one name for every reader, two of them with several patterns, and one without -/
example : ["2017-05-09_test-TC-contact_CH33.csv", "PreDiag_000287_000128short.092", "cell.h5",
    "run_C05.txt", "cell_neware_1.csv", "SNL_18650_timeseries.csv", "run_CH05_neware.csv",
    "000287_123_neware.csv", "notes.txt"].map (fun s => (autoLoad ascii s.toList).toOption) =
    [some .arbin, some .maccor, some .indigo, some .biologic, some .neware, some .batteryArchive,
      some .arbin, some .maccor, none] := by decide +kernel

example : ascii '\n' = false := by decide

/-- C58 fails in one respect: the choice is not made from the file name.  The whole path is matched, so
any file whose name has no earlier pattern is given to the Arbin reader, or the Maccor reader, when it is
put in a suitable directory: here every `.csv` file below a directory with `CH` in its name. -/
theorem C58_directory_violated (digit : Char → Bool) (hd : digit '\n' = false) (a b name z : Str)
    (ha : OneLine a) (hb : OneLine b) (hn : OneLine name) :
    autoLoad digit (a ++ "CH".toList ++ b ++ "/".toList ++ name ++ ".csv".toList ++ z) = .ok .arbin := by
  rw [((C58_routing digit hd _).1 .arbin)]
  refine ⟨Or.inl ⟨a, b ++ ("/".toList ++ name), z, by simp, ha, ?_⟩, by simp [rank]⟩
  intro h
  rcases List.mem_append.mp h with h | h
  · exact hb h
  · rcases List.mem_append.mp h with h | h
    · revert h; decide
    · exact hn h

/-- the same file name alone goes to another reader -/
example : autoLoad ascii "cell_neware_1.csv".toList = .ok .neware ∧
    autoLoad ascii "/data/CHARGE/cell_neware_1.csv".toList = .ok .arbin := by decide +kernel

end Beep.Props.Routing
