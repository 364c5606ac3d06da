import Verif.Model.MaccorToBiologic
import Verif.Model.BiologicToMaccor
/-
Model of a Maccor procedure that is converted to a Biologic settings file and converted back:
beep/protocol/maccor_to_biologic_mb.py followed by beep/protocol/biologic_mb_to_maccor.py.  The
settings file between them is the list of sequences (reading and writing it is `Model/Settings`).
-/
namespace Beep.RoundTrip
open Beep Beep.Units

/-- the fields of a limit as the reader finds them: `lim1_action` is "Next sequence" in the blank
sequence and "Goto sequence" where the converter writes it, maccor_to_biologic_mb.py:351-362,
biologic_mb_to_maccor.py:375-381 -/
def asLim (l : MtB.Lim) : BtM.BLim :=
  { type := l.type, comp := l.comp, value := l.value, unit := l.unit,
    action := if l.jumps then "Goto sequence" else "Next sequence", goto := l.goto.toNat }

/-- the fields of a record rule as the reader finds them, maccor_to_biologic_mb.py:417-447,
biologic_mb_to_maccor.py:472-474 -/
def asRec (r : MtB.Rec) : BtM.BRec := { type := r.type, value := r.value, unit := r.unit }

/-- the fields of a sequence as the reader finds them: `ctrl1_val_vs` is "Ref" for constant
voltage and "<None>" otherwise, `charge/discharge` "Charge" or "Discharge".  The value of a rest is
not read; it is 0 here, maccor_to_biologic_mb.py:230-298, 453-466, biologic_mb_to_maccor.py:288-318 -/
def asSeq (q : MtB.Seq) : BtM.BSeq :=
  { ctrlType := q.ctrlType, value := (q.value.map Prod.fst).getD 0, unit := (q.value.map Prod.snd).getD "",
    vs := if q.ctrlType = "CV" then "Ref" else "<None>", charge := if q.charge then "Charge" else "Discharge",
    lims := q.lims.map asLim, recs := q.recs.map asRec, repeats := q.repeats, loopTo := q.loopTo.toNat }

/-- no limits configured, maccor_to_biologic_mb.py:58-61 -/
def noLimits : MtB.Config := { maxV := none, minV := none, maxI := none, minI := none }

/-- converting and converting back: `convert`, maccor_to_biologic_mb.py:1222-1266, then
`biologic_mb_text_to_maccor_xml` with `_get_seqs`, biologic_mb_to_maccor.py:85-132, which asserts
that there is one technique.  A looping technique is followed by a second one, its loop. -/
def roundTrip (cfg : MtB.Config) (steps : List MtB.Step) : Except Err (List BtM.MStep) :=
  match MtB.convert cfg steps with
  | .error e => .error e
  | .ok (conv, _) => match conv with
    | [(c, seqs)] => if c.tech.loops then .error .assertionError else BtM.createSteps (seqs.map asSeq)
    | _ => .error .assertionError

end Beep.RoundTrip
