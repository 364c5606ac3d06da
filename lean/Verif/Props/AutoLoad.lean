import Verif.Model.AutoLoad
import Verif.Proof.Base
import Verif.Proof.Py
/-
C155: loading a processed file whatever it holds.  C156: inspecting a file.
-/
namespace Beep.Props.AutoLoad
open Beep Beep.AutoLoad Beep.Spec.AutoLoad

/-- C155, files with a class: cycler data are loaded as what they are, and only the record of the
processed file is new. -/
theorem C155_class {D O : Type} (abspath : String → String) (path : String) (d : Data D) :
    ∃ d', autoLoadProcessed (O := O) abspath path (.ok (.data d)) = .ok d' ∧ d'.cycler = d.cycler ∧ d'.rest = d.rest ∧
      Relocated d.paths d'.paths path :=
  ⟨_, rfl, rfl, rfl, Dict.get?_set_self _ _ _, fun _ hk => Dict.get?_set_ne _ _ hk⟩

/-- C155, exactly these: a file is loaded exactly if it holds cycler data or a dictionary that the
reader of cycler data accepts; other objects are refused with a type error, and what the decoder
raises is passed on. -/
theorem C155_loads {D O : Type} (abspath : String → String) (path : String) (c : Except Err (Content D O)) :
    ((∃ d, autoLoadProcessed abspath path c = .ok d) ↔
      ((∃ d, c = .ok (.data d)) ∨ ∃ p d, c = .ok (.dict p (.ok d)))) ∧
    (∀ e, autoLoadProcessed abspath path c = .error e →
      c = .error e ∨ (∃ p, c = .ok (.dict p (.error e))) ∨ e = .typeError) := by
  rcases c with e | c
  · refine ⟨⟨fun ⟨_, h⟩ => (by cases h), ?_⟩, fun e' h => by cases h; exact Or.inl rfl⟩
    rintro (⟨_, h⟩ | ⟨_, _, h⟩) <;> cases h
  · cases c with
    | data d => exact ⟨⟨fun _ => Or.inl ⟨d, rfl⟩, fun _ => ⟨_, rfl⟩⟩, fun e h => by cases h⟩
    | dict p r =>
      rcases r with e | d
      · refine ⟨⟨fun ⟨_, h⟩ => (by cases h), ?_⟩, fun e' h => by cases h; exact Or.inr (Or.inl ⟨p, rfl⟩)⟩
        rintro (⟨_, h⟩ | ⟨_, _, h⟩) <;> cases h
      · exact ⟨⟨fun _ => Or.inr ⟨p, d, rfl⟩, fun _ => ⟨_, rfl⟩⟩, fun e h => by cases h⟩
    | featurizer o | matrix o | experiment o | other o =>
      refine ⟨⟨fun ⟨_, h⟩ => (by cases h), ?_⟩, fun e h => (by cases h; exact Or.inr (Or.inr rfl))⟩
      rintro (⟨_, h⟩ | ⟨_, _, h⟩) <;> cases h
    | plain =>
      refine ⟨⟨fun ⟨_, h⟩ => (by cases h), ?_⟩, fun e h => (by cases h; exact Or.inr (Or.inr rfl))⟩
      rintro (⟨_, h⟩ | ⟨_, _, h⟩) <;> cases h

/-- C155, files without a class keep their data and get the absolute path of the file -/
theorem C155_dictionary_partial {D O : Type} (abspath : String → String) (path : String) (p : Dict String String) (d : D) :
    ∃ d', autoLoadProcessed (O := O) abspath path (.ok (.dict p (.ok d))) = .ok d' ∧ d'.rest = d ∧
      Relocated p d'.paths (abspath path) :=
  ⟨_, rfl, rfl, Dict.get?_set_self _ _ _, fun _ hk => Dict.get?_set_ne _ _ hk⟩

/-- C155 fails: whatever cycler a file without a class is from, it is loaded as Arbin data; the
documentation promises Biologic data for a file of an old Biologic run. -/
theorem C155_cycler_violated {D O : Type} (abspath : String → String) (path : String) (p : Dict String String)
    (r : Except Err D) (d : Data D) (h : autoLoadProcessed (O := O) abspath path (.ok (.dict p r)) = .ok d) :
    d.cycler = .arbin := by
  rcases r with e | x
  · cases h
  · cases h; rfl

/-- C155 fails: the processed file is recorded by its absolute path for files without a class and as
the caller wrote it for files with one. -/
theorem C155_path_violated {D O : Type} (abspath : String → String) (path : String) (hrel : abspath path ≠ path)
    (d : Data D) (p : Dict String String) (x : D) :
    ∃ a b, autoLoadProcessed (O := O) abspath path (.ok (.data d)) = .ok a ∧
      autoLoadProcessed (O := O) abspath path (.ok (.dict p (.ok x))) = .ok b ∧
      a.paths.get? "structured" = some path ∧ b.paths.get? "structured" = some (abspath path) ∧
      a.paths.get? "structured" ≠ b.paths.get? "structured" := by
  refine ⟨_, _, rfl, rfl, Dict.get?_set_self _ _ _, Dict.get?_set_self _ _ _, ?_⟩
  rw [Dict.get?_set_self, Dict.get?_set_self]
  exact fun h => hrel (Option.some.inj h).symm

/-- non-vacuity: a Biologic run with its class, and one without -/
example : (autoLoadProcessed (O := Unit) ("/data/" ++ ·) "run.json"
      (.ok (.data ⟨.biologic, [("raw", "/data/run.mpt")], (5 : Nat)⟩)) =
        .ok ⟨.biologic, [("raw", "/data/run.mpt"), ("structured", "run.json")], 5⟩) ∧
    (autoLoadProcessed (O := Unit) ("/data/" ++ ·) "run.json" (.ok (.dict [] (.ok (5 : Nat)))) =
        .ok ⟨.arbin, [("structured", "/data/run.json")], 5⟩) ∧
    (autoLoadProcessed (D := Nat) ("/data/" ++ ·) "f.json" (.ok (.featurizer ())) = .error .typeError) := by
  decide +kernel

/-! ### C156 -/

/-- C156, objects (partial: not for featurizers): an object that can be serialised is reported under a
heading with its kind and the file. -/
theorem C156_object_partial {D O : Type} (abspath : String → String) (asDict : Content D O → Option Err) (path : String)
    (raw : Except Err (Data D)) :
    (∀ d, asDict (.data d) = none → ∃ h, inspect abspath asDict path (.ok (.data d)) raw = .ok (.data h d) ∧
      Heading (abspath path) (Content.data (O := O) d) h) ∧
    (∀ o, asDict (.matrix o) = none → ∃ h, inspect abspath asDict path (.ok (.matrix o)) raw = .ok (.object h o) ∧
      Heading (abspath path) (Content.matrix (D := D) o) h) ∧
    (∀ o, asDict (.experiment o) = none → ∃ h, inspect abspath asDict path (.ok (.experiment o)) raw = .ok (.object h o) ∧
      Heading (abspath path) (Content.experiment (D := D) o) h) ∧
    (∀ o, asDict (.other o) = none → inspect abspath asDict path (.ok (.other o)) raw = .ok (.dictionary o)) := by
  refine ⟨fun d h => ⟨_, ?_, rfl⟩, fun o h => ⟨_, ?_, rfl⟩, fun o h => ⟨_, ?_, rfl⟩, fun o h => ?_⟩ <;>
    simp only [inspect, checked, h, report]

/-- C156 fails for featurizers: the heading does not name the file, it has the text `{file}`. -/
theorem C156_featurizer_violated {D O : Type} (abspath : String → String) (asDict : Content D O → Option Err)
    (path : String) (raw : Except Err (Data D)) (o : O) (ho : asDict (.featurizer o) = none)
    (hf : abspath path ≠ "{file}") :
    ∃ h, inspect abspath asDict path (.ok (.featurizer o)) raw = .ok (.object h o) ∧
      h = "BEEP Featurizer: {file}" ∧ ¬ Heading (abspath path) (Content.featurizer (D := D) o) h := by
  refine ⟨_, by simp only [inspect, checked, ho, report], rfl, ?_⟩
  intro h
  apply hf
  have h' : "BEEP Featurizer: {file}" = "BEEP Featurizer: " ++ abspath path := h
  have e : ("BEEP Featurizer: ".toList ++ "{file}".toList) = "BEEP Featurizer: ".toList ++ (abspath path).toList := by
    have := congrArg String.toList h'
    rw [String.toList_append] at this
    exact this
  exact (String.toList_injective (List.append_cancel_left e)).symm

/-- the names with the endings of JSON files -/
theorem isJson_iff (file : String) :
    isJson file = true ↔ JsonName file := by
  unfold isJson JsonName
  rw [Bool.or_eq_true, List.isSuffixOf_iff_suffix, List.isSuffixOf_iff_suffix]
  constructor
  · rintro (⟨s, h⟩ | ⟨s, h⟩)
    · exact ⟨s, Or.inl h.symm⟩
    · exact ⟨s, Or.inr h.symm⟩
  · rintro ⟨s, h | h⟩
    · exact Or.inl ⟨s, h.symm⟩
    · exact Or.inr ⟨s, h.symm⟩

/-- C156, old and raw files: a JSON file with a plain dictionary is reported as cycler data if the
reader of cycler data accepts it and refused with a value error otherwise; a file that is not JSON is
read as a raw file in the same way. -/
theorem C156_second_attempt {D O : Type} (abspath : String → String) (asDict : Content D O → Option Err) (path : String)
    (raw : Except Err (Data D)) :
    (JsonName (abspath path) → ∀ p r,
      (∀ d, r = .ok d → ∃ d', inspect abspath asDict path (.ok (.dict p r)) raw =
        .ok (.data ("BEEP Datapath: " ++ abspath path) d') ∧ d'.rest = d) ∧
      (∀ e, r = .error e → inspect abspath asDict path (.ok (.dict p r)) raw = .error .valueError)) ∧
    (¬ JsonName (abspath path) → ∀ e, e = .valueError ∨ e = .keyError ∨ e = .attributeError →
      (∀ d, raw = .ok d → inspect abspath asDict path (.error e) raw =
        .ok (.data ("BEEP Datapath: " ++ abspath path) d)) ∧
      (∀ x, raw = .error x → inspect abspath asDict path (.error e) raw = .error .valueError)) := by
  constructor
  · intro hj p r
    rw [← isJson_iff] at hj
    constructor
    · rintro d rfl
      refine ⟨⟨.arbin, p.set "structured" (abspath (abspath path)), d⟩, ?_, rfl⟩
      simp [inspect, checked, caught, hj, autoLoadProcessed, fromJsonFile, report]
    · rintro e rfl
      simp [inspect, checked, caught, hj, autoLoadProcessed, fromJsonFile]
  · intro hj e he
    rw [← isJson_iff, Bool.not_eq_true] at hj
    have hc : caught e = true := by rcases he with rfl | rfl | rfl <;> rfl
    constructor
    · rintro d rfl
      simp [inspect, checked, hc, hj, report]
    · rintro x rfl
      simp [inspect, checked, hc, hj]

/-- C156 fails: an exception of another kind while decoding (for example a type error of the class
named in the file) is passed on instead of the message that the file is not recognised. -/
theorem C156_refusal_violated {D O : Type} (abspath : String → String) (asDict : Content D O → Option Err) (path : String)
    (raw : Except Err (Data D)) (e : Err) (he : e ≠ .valueError ∧ e ≠ .keyError ∧ e ≠ .attributeError) :
    inspect (O := O) abspath asDict path (.error e) raw = .error e := by
  have hc : caught e = false := by
    cases e <;> first | rfl | exact absurd rfl he.1 | exact absurd rfl he.2.1 | exact absurd rfl he.2.2
  simp [inspect, checked, hc]

/-- non-vacuity -/
example : JsonName "/data/run.json.gz" ∧ ¬ JsonName "/data/run.092" := by
  rw [← isJson_iff, ← isJson_iff]; decide +kernel

end Beep.Props.AutoLoad
