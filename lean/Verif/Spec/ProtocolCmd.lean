import Verif.Model.ProtocolCmd
import Verif.Spec.Generate
/-
Vocabulary for C118: where `beep protocol` writes, and which row a file comes from.
-/
namespace Beep.Spec.ProtocolCmd
open Beep
open Beep.Batch (Files)
open Beep.ProtocolCmd
open Beep.Generate (Row)
open Beep.Spec.Generate (Generates Unsupported Handled)

variable {P G : Type}

/-- the output directory: the one given, or the working directory -/
def Target (w : World P G) (cwd : Str) (given : Option Str) (dir : Str) : Prop :=
  (given = none ∨ given = some []) ∧ dir = cwd ∨ ∃ o, given = some o ∧ o ≠ [] ∧ dir = w.abspath o

/-- the file comes from some row of the table -/
def Made (w : World P G) (dir : Str) (rows : List Row) (name : Str) : Prop :=
  ∃ (i : Nat) (r : Row) (p : P), rows[i]? = some r ∧ Generates w.env dir i r name p

/-- the protocol `p` is the one that the last of the rows with this file makes -/
def Final (w : World P G) (dir : Str) (rows : List Row) (name : Str) (p : P) : Prop :=
  ∃ (i : Nat) (r : Row), rows[i]? = some r ∧ Generates w.env dir i r name p ∧
    ∀ (j : Nat) (r' : Row) (q : P), i < j → rows[j]? = some r' → ¬ Generates w.env dir j r' name q

end Beep.Spec.ProtocolCmd
