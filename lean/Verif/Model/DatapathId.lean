import Verif.Model.Datapath
import Verif.Model.Text
/-
Model of `BEEPDatapath.semiunique_id`, beep/structure/base.py:464-486.
-/
namespace Beep.DatapathId
open Beep.Datapath Beep.Text

/-- `f"{v}"` of a metadata value that may be absent (`dict.get` gives `None`), base.py:153-158,
474-476; `num` is the text Python prints for a number (an input of the model) -/
def shown (num : Rat → Str) (v : Option Val) : Str :=
  match v with
  | none => "None".toList
  | some .null => "None".toList
  | some .nan => "nan".toList
  | some (.str s) => s.toList
  | some (.num q) => num q

/-- `f"{b}"` of a truth value, base.py:478-479 -/
def shownBool (b : Bool) : Str := if b then "True".toList else "False".toList

/-- `f"{p}"` of a text or `None`, base.py:477 -/
def shownOpt (p : Option String) : Str := (p.getD "None").toList

/-- `self.paths.get(key, None)`, base.py:481-482 -/
def pathAt (d : Datapath) (key : String) : Option String := (d.paths.get? key).getD none

/-- the f-strings of `semiunique_id`, base.py:474-485, for given texts -/
def idText (barcode channel protocol schema structured legacy raw structuredPath : Str) : Str :=
  "barcode:".toList ++ (barcode ++ ("-channel:".toList ++ (channel ++ ("-protocol:".toList ++ (protocol ++
  ("-schema:".toList ++ (schema ++ ("-structured:".toList ++ (structured ++ ("-legacy:".toList ++ (legacy ++
  ("-raw_path:".toList ++ (raw ++ ("-structured_path:".toList ++ structuredPath))))))))))))))

/-- `semiunique_id`, base.py:464-486 -/
def semiuniqueId (num : Rat → Str) (d : Datapath) : Str :=
  idText (shown num (d.metadata.get? "barcode")) (shown num (d.metadata.get? "channel_id"))
    (shown num (d.metadata.get? "protocol")) (shownOpt d.schema) (shownBool (isStructured d))
    (shownBool d.legacy) (shownOpt (pathAt d "raw")) (shownOpt (pathAt d "structured"))

end Beep.DatapathId
