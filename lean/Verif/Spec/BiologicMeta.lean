import Verif.Spec.Ingest
/-
Vocabulary for the metadata files of Biologic runs (C126).
-/
namespace Beep.Spec.BiologicMeta
open Beep Beep.Spec.Ingest

/-- the line reads `<key> : <value>`; the key ends at the first colon between blanks -/
def Entry (line key value : Str) : Prop :=
  ∃ t, Trimmed line t ∧ t = key ++ " : ".toList ++ value ∧
    ∀ k v, t = k ++ " : ".toList ++ v → key.length ≤ k.length

/-- what the line is about: its key, or all of it if there is no value -/
def Key (line key : Str) : Prop :=
  (∃ value, Entry line key value) ∨ (Trimmed line key ∧ ¬ " : ".toList <:+: key)

/-- the line with the channel -/
def IsChannel (line : Str) : Prop := Key line "Run on channel".toList

/-- the line with the comments -/
def IsComment (line : Str) : Prop := ∃ k, Key line k ∧ "Comments".toList <:+: k

/-- the line where the definition of the cycles begins -/
def IsDefinition (line : Str) : Prop := ∃ k, Key line k ∧ "Cycle Definition".toList <:+: k

/-- printable ASCII text without apostrophe and backslash -/
def Plain (line : Str) : Prop := ∀ c ∈ line, 32 ≤ c.toNat ∧ c.toNat < 127 ∧ c ≠ '\'' ∧ c ≠ '\\'

/-- `value` begins with the channel `<letter><number>`, `row` is the place of the letter in the alphabet -/
def ChannelIs (value : Str) (row : Nat) (ds : Str) : Prop :=
  1 ≤ row ∧ row ≤ 26 ∧ ∃ rest, value = Char.ofNat (64 + row) :: (ds ++ rest) ∧ (rest = [] ∨ ∃ r, rest = ' ' :: r) ∧
    ∀ c ∈ ds, c.isDigit = true

/-- a metadata file as Windows writes it: the channel and the comments come first, each on one line, then
the definition of the cycles up to an empty line -/
structure Usual (file : List Str) (channel comment : Str) (definition : List Str) : Prop where
  shape : ∃ pre d defs post, file = (pre ++ d :: defs ++ [[]]).map (· ++ "\r\n".toList) ++ post ∧ definition = d :: defs ∧
    (∀ l ∈ pre ++ d :: defs, Plain l) ∧ IsDefinition d ∧ (∀ l ∈ pre, ¬ IsDefinition l) ∧ [] ∉ defs ∧
    channel ∈ pre ∧ IsChannel channel ∧ (∀ l ∈ pre ++ d :: defs, IsChannel l → l = channel) ∧
    comment ∈ pre ∧ IsComment comment ∧ (∀ l ∈ pre ++ d :: defs, IsComment l → l = comment) ∧
    (pre ++ d :: defs).length ≤ 10000

end Beep.Spec.BiologicMeta
