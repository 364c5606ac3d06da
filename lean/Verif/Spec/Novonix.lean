import Verif.Model.Novonix
/-
Independent vocabulary for Novonix files.
-/
namespace Beep.Spec.Novonix
open Beep

/-- the line has the column names -/
def IsHeader (l : Str) : Prop := "Cycle Number".toList <:+: l

/-- the line has nothing but white space -/
def IsBlank (l : Str) : Prop := ∀ c ∈ l, Text.isWs c = true

/-- `header` is the first header of the file, after the lines `before` -/
def FirstHeader (lines before : List Str) (header : Str) (after : List Str) : Prop :=
  lines = before ++ header :: after ∧ (∀ l ∈ before, ¬IsHeader l) ∧ IsHeader header

/-- the fields of a line of comma separated values that ends with a line end or at the end of the file -/
def Fields (l : Str) (fs : List Str) : Prop :=
  ∃ t e, l = t ++ e ∧ e ∈ [[], ['\n'], ['\r', '\n']] ∧ (∀ c ∈ t, c ≠ '\n' ∧ c ≠ '\r') ∧
    fs ≠ [] ∧ (∀ f ∈ fs, ',' ∉ f) ∧ t = List.intercalate [','] fs

/-- a line within a file: no line end before its end -/
def IsLine (l : Str) : Prop := ∃ t e, l = t ++ e ∧ e ∈ [[], ['\n'], ['\r', '\n']] ∧ ∀ c ∈ t, c ≠ '\n' ∧ c ≠ '\r'

/-- printable ASCII without quotes, backslash and colon -/
def PlainChar (c : Char) : Prop := 32 ≤ c.toNat ∧ c.toNat < 127 ∧ c ≠ '\'' ∧ c ≠ '\\' ∧ c ≠ ':'

/-- a plain text -/
def Plain (s : Str) : Prop := ∀ c ∈ s, PlainChar c

/-- not empty, no blanks at the ends -/
def Trimmed (s : Str) : Prop :=
  s ≠ [] ∧ (∀ c, s.head? = some c → c ≠ ' ') ∧ (∀ c, s.getLast? = some c → c ≠ ' ')

/-- the labels of the entries of the summary, in order -/
def labels : List (String × String) :=
  [("Channel", "channel"), ("Cell", "cell"), ("Serial Number", "barcode"), ("Description", "description"),
   ("Protocol", "protocol"), ("Mass", "mass"), ("Capacity", "nominal_capacity"), ("Area", "area"),
   ("DC Offset Voltage", "offset_voltage_dc"), ("Version", "software_version")]

/-- the text has the label of entry `key` and of no entry before it -/
def LabelOf (s : Str) (key : Str) : Prop :=
  ∃ a p b, labels = a ++ p :: b ∧ p.2.toList = key ∧ p.1.toList <:+: s ∧ ∀ q ∈ a, ¬ q.1.toList <:+: s

/-- printable ASCII without quotes and backslash, and a line end -/
def Ordinary (l : Str) : Prop := ∃ t, l = t ++ ['\n'] ∧ ∀ c ∈ t, PlainChar c ∨ c = ':'

/-- `val` is what the line says after its last colon -/
def AfterColon (l : Str) (val : Str) (lineEnd : Str) : Prop :=
  ∃ pre n, l = pre ++ ':' :: (List.replicate n ' ' ++ val ++ lineEnd) ∧ (∀ c ∈ pre, PlainChar c ∨ c = ':') ∧
    Plain val ∧ Trimmed val

/-- a line `label: value` with the given line end; the label has no colon -/
def EntryLine (l : Str) (label : Str) (val : Str) (lineEnd : Str) : Prop :=
  ∃ n, l = label ++ ':' :: (List.replicate n ' ' ++ val ++ lineEnd) ∧ Plain label ∧
    (∀ c ∈ val, PlainChar c ∨ c = ':') ∧ Trimmed val

/-- the lines without the blank ones -/
inductive WithoutBlanks : List Str → List Str → Prop where
  | nil : WithoutBlanks [] []
  | skip {l : Str} {a b : List Str} : IsBlank l → WithoutBlanks a b → WithoutBlanks (l :: a) b
  | keep {l : Str} {a b : List Str} : ¬IsBlank l → WithoutBlanks a b → WithoutBlanks (l :: a) (l :: b)

/-- the summary section of a file: what is between its first and its last line -/
def Section (lines : List Str) (body : List Str) : Prop :=
  ∃ before first last rest, lines = before ++ first :: (body ++ last :: rest) ∧
    (∀ l ∈ before, ¬"[Summary]".toList <:+: l ∧ ¬"[End Summary]".toList <:+: l) ∧
    "[Summary]".toList <:+: first ∧ (∀ l ∈ body, ¬"[End Summary]".toList <:+: l) ∧
    "[End Summary]".toList <:+: last ∧ ¬"[Summary]".toList <:+: last ∧
    (∀ l ∈ before ++ first :: (body ++ [last]), ¬IsHeader l)

end Beep.Spec.Novonix
