import Verif.Model.ExitStatus
import Verif.Model.TrainCmd
import Verif.Model.ProtocolCmd
/-
The exit status of `beep train`, `beep predict` and `beep protocol`: beep/cmd.py.
-/
namespace Beep.ExitMore
open Beep Beep.ExitStatus
open Beep.Batch (Exc Files)

/-- how a command ends when nobody presses Ctrl-C (cmd.py:1150-1356, 1391-1509, 1528-1611) -/
def ending {S : Type} (r : Except Err S) : Ending :=
  match r with
  | .ok _ => .returned
  | .error _ => .raised

/-- `beep train` with the way it ends.  With `interrupted`, Ctrl-C is pressed while the body of the `try`
runs, which writes nothing (cmd.py:1150-1356; 1321-1323) -/
def train (interrupted : Bool) (w : TrainCmd.World) (ctx : TrainCmd.Ctx) (o : TrainCmd.TrainOpts)
    (fs : Files TrainCmd.Content) : Files TrainCmd.Content × Ending :=
  if interrupted then
    match TrainCmd.alphaGrid o.alphaLower o.alphaUpper o.nAlphas, TrainCmd.l1List w o.l1Ratios with
    | .error _, _ => (fs, .raised)
    | _, .error _ => (fs, .raised)
    | .ok _, .ok _ => match fs (w.abspath o.featureFile), fs (w.abspath o.targetFile) with
      | some _, some _ => (fs, contextExit 1)
      | _, _ => (fs, .raised)
  else ((TrainCmd.train w ctx o fs).1, ending (TrainCmd.train w ctx o fs).2)

/-- `beep predict` with the way it ends; Ctrl-C as for `train` (cmd.py:1391-1509; 1484-1486) -/
def predict (interrupted : Bool) (w : TrainCmd.World) (ctx : TrainCmd.Ctx) (o : TrainCmd.PredictOpts)
    (fs : Files TrainCmd.Content) : Files TrainCmd.Content × Ending :=
  if interrupted then
    if TrainCmd.badName o.output then (fs, .raised)
    else match fs (w.abspath o.modelFile), fs (w.abspath o.featureFile) with
      | some _, some _ => (fs, contextExit 1)
      | _, _ => (fs, .raised)
  else ((TrainCmd.predictCmd w ctx o fs).1, ending (TrainCmd.predictCmd w ctx o fs).2)

variable {P G : Type}

/-- the generation of files when Ctrl-C is pressed after `k` rows, unless something else was raised before
(generate_protocol.py:88-242) -/
def generateStopped (w : ProtocolCmd.World P G) (dir : Str) (k : Nat) (c : ProtocolCmd.Content P)
    (fs : Files (ProtocolCmd.Content P)) : Files (ProtocolCmd.Content P) × Except Exc (Generate.State P) :=
  match w.read c with
  | .error e => (fs, .error e)
  | .ok rows => match Generate.loop w.env dir 0 (rows.take k) {} with
    | (s, some e) => (ProtocolCmd.writeAll fs s.written, .error e)
    | (s, none) => (ProtocolCmd.writeAll fs s.written, .error .interrupt)

/-- `beep protocol`: the files, the status and the way it ends.  With `stop = some k`, Ctrl-C is pressed
after `k` rows; `except BaseException` takes it like any other exception.  `halt-on-error` is not looked at;
it is the argument without a name.  `saved`: the outcome of writing the status file (cmd.py:1528-1611) -/
def protocol (_ : Bool) (stop : Option Nat) (w : ProtocolCmd.World P G) (cwd : Str) (statusFile : Option Str)
    (csvFile : Str) (outputDir : Option Str) (saved : Except Exc Unit) (fs : Files (ProtocolCmd.Content P)) :
    Files (ProtocolCmd.Content P) × Option ProtocolCmd.Status × Ending :=
  match fs (w.abspath csvFile) with
  | none => (fs, none, .raised)
  | some c =>
    let dir := ProtocolCmd.outDir w cwd outputDir
    if w.isDir dir then
      let g := match stop with
        | none => ProtocolCmd.generateFiles w (w.abspath csvFile) dir c fs
        | some k => generateStopped w dir k c fs
      let st := ProtocolCmd.statusOf w (w.abspath csvFile) c g.2
      match saved with
      | .ok _ => (ProtocolCmd.report statusFile g.1 st, some st, .returned)
      | .error _ => (g.1, some st, .raised)
    else (fs, none, .raised)

end Beep.ExitMore
