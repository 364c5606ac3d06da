import Verif.Proof.Base
import Verif.Proof.StatusMeta
import Verif.Spec.RetriggerArgs
/-
C182: the options of the retrigger script reach it as they were given.
-/
namespace Beep.RetriggerArgs
open Beep Spec.RetriggerArgs

/-- entries with names that are not there yet go to the end -/
theorem fold_new (l d : Dict Str Val) (h : (Dict.keys d ++ l.map Prod.fst).Nodup) :
    l.foldl (fun d kv => Dict.set d kv.1 kv.2) d = d ++ l := by
  induction l generalizing d with
  | nil => simp
  | cons x l ih =>
    have hx : x.1 ∉ Dict.keys d := by
      intro hm
      exact (List.nodup_append.mp h).2.2 x.1 hm x.1 (by simp) rfl
    rw [List.foldl_cons, Proof.StatusMeta.set_new d x.1 x.2 hx, ih]
    · simp
    · simpa [Dict.keys] using h

theorem evalArgs_docopt (rest : Str → Option Val) (mode pre output : Option Str) :
    evalArgs rest (docopt mode pre output) =
      [("help".toList, .bool false), ("version".toList, .bool false),
       ("mode".toList, parseArg rest (.text (mode.getD "'test'".toList))),
       ("s3_prefix".toList, parseArg rest (.text (pre.getD "'d3Batt/raw/arbin'".toList))),
       ("s3_output".toList, parseArg rest (.text (output.getD "'d3Batt/structure'".toList)))] := by
  unfold evalArgs
  rw [fold_new _ _ (by simp [docopt, Dict.keys])]
  rfl

theorem option_given {rest : Str → Option Val} {mode pre output : Option Str} {name t : Str}
    (h : Given mode pre output name t) : option rest mode pre output name = some (parseArg rest (.text t)) := by
  unfold option
  rw [evalArgs_docopt]
  cases h <;> simp [Dict.get?]

/-- C182, partial: a text that is no Python literal reaches the script as it was given, whichever option it is for. -/
theorem C182_given_partial (rest : Str → Option Val) (mode pre output : Option Str) (name t : Str)
    (h : Given mode pre output name t) (hl : NoLiteral rest t) : option rest mode pre output name = some (.text t) := by
  obtain ⟨h1, h2, h3, h4, ⟨c, hc, hd⟩, h6⟩ := hl
  rw [option_given h]
  have hi : isInt t = false := by
    cases t with
    | nil => rfl
    | cons a s =>
      have : (a :: s).all (fun d => decide ('0' ≤ d ∧ d ≤ '9')) = false := by
        rw [List.all_eq_false]
        refine ⟨c, hc, ?_⟩
        simp only [decide_eq_true_eq, not_and]
        intro h0
        rcases hd with hd | hd
        · exact absurd h0 (Char.not_le.mpr hd)
        · exact Char.not_le.mpr hd
      simp only [isInt, this, Bool.false_and]
  have hu : unquote t = none := by
    cases t with
    | nil => rfl
    | cons q s =>
      have a := h6 q s rfl
      rw [unquote, if_neg]
      exact fun h => a h.1 h.2.1
  simp only [parseArg, fixBoolean, if_neg h1, if_neg h2, literalEval, hi, Bool.false_eq_true, if_false, hu, if_neg h3, h4]
  rfl

/-- a location in the bucket -/
example : Given none (some "d3Batt/raw/maccor".toList) none "s3_prefix".toList "d3Batt/raw/maccor".toList ∧
    NoLiteral (fun _ => none) "d3Batt/raw/maccor".toList := by
  refine ⟨.pre _ _ _, by decide, by decide, by decide, rfl, ⟨'/', by decide, by decide⟩, ?_⟩
  intro q s h
  cases h; decide

/-- C182: without options the documented defaults are used, without the quotes they are written with. -/
theorem C182_defaults (rest : Str → Option Val) (mode pre output : Option Str) :
    (mode = none → option rest mode pre output "mode".toList = some (.text "test".toList)) ∧
    (pre = none → option rest mode pre output "s3_prefix".toList = some (.text "d3Batt/raw/arbin".toList)) ∧
    (output = none → option rest mode pre output "s3_output".toList = some (.text "d3Batt/structure".toList)) := by
  unfold option
  rw [evalArgs_docopt]
  refine ⟨?_, ?_, ?_⟩ <;> rintro rfl <;> rfl

/-- C182: a text given with quotes of its own, as the defaults are, reaches the script without them. -/
theorem C182_quoted (rest : Str → Option Val) (mode pre output : Option Str) (name s : Str) (q : Char) (hq : q = '\'' ∨ q = '"')
    (h : Given mode pre output name (q :: (s ++ [q]))) (hs : q ∉ s ∧ '\\' ∉ s ∧ '\n' ∉ s ∧ '\r' ∉ s) :
    option rest mode pre output name = some (.text s) := by
  rw [option_given h]
  have ht : q :: (s ++ [q]) ≠ "True".toList := by
    intro e; rcases hq with rfl | rfl <;> exact absurd (List.cons.inj e).1 (by decide)
  have hf : q :: (s ++ [q]) ≠ "False".toList := by
    intro e; rcases hq with rfl | rfl <;> exact absurd (List.cons.inj e).1 (by decide)
  have hi : isInt (q :: (s ++ [q])) = false := by
    rcases hq with rfl | rfl <;> simp [isInt] <;> decide
  have hu : unquote (q :: (s ++ [q])) = some s := by
    have : s.all (fun c => decide (c ≠ q ∧ c ≠ '\\' ∧ c ≠ '\n' ∧ c ≠ '\r')) = true := by
      rw [List.all_eq_true]
      intro c hc
      simp only [decide_eq_true_eq]
      exact ⟨fun e => hs.1 (e ▸ hc), fun e => hs.2.1 (e ▸ hc), fun e => hs.2.2.1 (e ▸ hc), fun e => hs.2.2.2 (e ▸ hc)⟩
    simp only [unquote, List.getLast?_append, List.getLast?_singleton, Option.some_or, List.dropLast_concat, this, hq,
      and_true, if_true]
  simp only [parseArg, fixBoolean, if_neg ht, if_neg hf, literalEval, hi, Bool.false_eq_true, if_false, hu]
  rfl

/-- a quoted mode -/
example : Given (some "'run'".toList) none none "mode".toList ('\'' :: ("run".toList ++ ['\''])) := .mode _ _ _

/-- C182, violated: a text of digits without a leading zero, a location named after a year for example, reaches the script as
a number, which is no location. -/
theorem C182_number_violated (rest : Str → Option Val) (mode pre output : Option Str) (name t : Str)
    (h : Given mode pre output name t) (hd : ∀ c ∈ t, '0' ≤ c ∧ c ≤ '9') (h0 : ∃ c s, t = c :: s ∧ c ≠ '0') :
    option rest mode pre output name = some (.int t) := by
  obtain ⟨c, s, rfl, hc⟩ := h0
  rw [option_given h]
  have hi : isInt (c :: s) = true := by
    simp only [isInt, Bool.and_eq_true, List.all_eq_true, decide_eq_true_eq]
    exact ⟨hd, by simp [hc]⟩
  have ht : c :: s ≠ "True".toList := by
    intro e; have := hd 'T' (by rw [e]; decide); revert this; decide
  have hf : c :: s ≠ "False".toList := by
    intro e; have := hd 'F' (by rw [e]; decide); revert this; decide
  simp only [parseArg, fixBoolean, if_neg ht, if_neg hf, literalEval, hi, if_true]
  rfl

/-- a year -/
example : Given none (some "2020".toList) none "s3_prefix".toList "2020".toList ∧
    option (fun _ => none) none (some "2020".toList) none "s3_prefix".toList = some (.int "2020".toList) :=
  ⟨.pre _ _ _, by decide +kernel⟩

/-- C182, violated: the words `True`, `False` and `None` reach the script as Python values, not as texts. -/
theorem C182_word_violated (rest : Str → Option Val) (mode pre output : Option Str) (name t : Str)
    (h : Given mode pre output name t) :
    (t = "True".toList → option rest mode pre output name = some (.bool true)) ∧
    (t = "False".toList → option rest mode pre output name = some (.bool false)) ∧
    (t = "None".toList → option rest mode pre output name = some .none) := by
  rw [option_given h]
  refine ⟨?_, ?_, ?_⟩ <;> rintro rfl <;> rfl

/-- the mode `None` -/
example : Given (some "None".toList) none none "mode".toList "None".toList := .mode _ _ _

end Beep.RetriggerArgs
