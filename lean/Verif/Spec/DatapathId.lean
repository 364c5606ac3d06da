import Verif.Model.Datapath
/-
Specification vocabulary for the id of a datapath.
-/
namespace Beep.Spec.DatapathId
open Beep.Datapath

/-- the value of a metadata entry; no entry counts as `None` -/
def entry (d : Datapath) (key : String) : Val := (d.metadata.get? key).getD .null

/-- the path stored under a key, if any -/
def path (d : Datapath) (key : String) : Option String := (d.paths.get? key).getD none

/-- a text that cannot be mistaken for a separator of the id or for a missing value -/
def Plain (s : String) : Prop := ':' ∉ s.toList ∧ s ≠ "None"

/-- nothing, or a plain text -/
def PlainEntry (v : Val) : Prop := v = .null ∨ ∃ s, v = .str s ∧ Plain s

/-- nothing, or a number -/
def NumberEntry (v : Val) : Prop := v = .null ∨ ∃ q, v = .num q

/-- nothing, or a plain text -/
def PlainPath (p : Option String) : Prop := ∀ s, p = some s → Plain s

/-- numbers are printed without colon, differently for different numbers, and not as "None" -/
structure Printing (num : Rat → List Char) : Prop where
  plain : ∀ q, ':' ∉ num q
  inj : ∀ p q, num p = num q → p = q
  notNone : ∀ q, num q ≠ "None".toList

/-- a datapath with ordinary metadata and paths -/
structure Ordinary (d : Datapath) : Prop where
  barcode : PlainEntry (entry d "barcode")
  protocol : PlainEntry (entry d "protocol")
  channel : NumberEntry (entry d "channel_id")
  schema : PlainPath d.schema
  raw : PlainPath (path d "raw")
  structured : PlainPath (path d "structured")

/-- two datapaths agree in all that the id is made of -/
structure Agree (d e : Datapath) : Prop where
  barcode : entry d "barcode" = entry e "barcode"
  channel : entry d "channel_id" = entry e "channel_id"
  protocol : entry d "protocol" = entry e "protocol"
  schema : d.schema = e.schema
  structured : isStructured d = isStructured e
  legacy : d.legacy = e.legacy
  raw : path d "raw" = path e "raw"
  structuredPath : path d "structured" = path e "structured"

end Beep.Spec.DatapathId
