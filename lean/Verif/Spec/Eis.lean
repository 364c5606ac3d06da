import Verif.Spec.Ingest
/-
Words of a line, replaced text, and the names of spectra.
-/
namespace Beep.Spec.Eis
open Beep Text

/-- the words of a line: pieces without blanks, set apart by blanks -/
inductive Words : Str → List Str → Prop
  | none (s : Str) (h : ∀ c ∈ s, isWs c = true) : Words s []
  | cons (gap w rest : Str) (ws : List Str) (hg : ∀ c ∈ gap, isWs c = true) (hw : ∀ c ∈ w, isWs c = false)
      (hne : w ≠ []) (hr : rest = [] ∨ ∃ c r, rest = c :: r ∧ isWs c = true) (h : Words rest ws) :
      Words (gap ++ w ++ rest) (w :: ws)

/-- `t` is `s` with every occurrence of `old`, from left to right, replaced by `new` -/
inductive Replaced (old new : Str) : Str → Str → Prop
  | none (s : Str) (h : ¬ old <:+: s) : Replaced old new s s
  | first (a b t : Str) (h : ∀ a' b', a ++ old ++ b = a' ++ old ++ b' → a.length ≤ a'.length)
      (hr : Replaced old new b t) : Replaced old new (a ++ old ++ b) (a ++ new ++ t)

/-- a path without the characters that have a meaning in patterns -/
def Plain (p : Str) : Prop := '*' ∉ p ∧ '?' ∉ p ∧ '[' ∉ p

/-- the path of a file with an extension -/
def Extended (raw stem ext : Str) : Prop := raw = stem ++ '.' :: ext ∧ '.' ∉ ext ∧ '/' ∉ ext

/-- spectra are named like the run, with something more before the extension -/
def SpectrumOf (raw p : Str) : Prop :=
  ∃ stem ext mid, Extended raw stem ext ∧ '/' ∉ mid ∧ p = stem ++ '.' :: mid ++ '.' :: ext

end Beep.Spec.Eis
