import Verif.Model.ExitMore
import Verif.Props.TrainCmd
import Verif.Props.ProtocolCmd
/-
C175: the exit status of `beep train`, `beep predict` and `beep protocol`.
-/
namespace Beep.Props.ExitMore
open Beep Beep.ExitStatus
open Beep.Batch (Exc Files)
open Beep.Spec.TrainCmd (OnlyChanges)
open Beep.Spec.ProtocolCmd (Target Final)
open Beep.Spec.Generate (Handled)

theorem ending_zero {S : Type} (r : Except Err S) : processStatus (Beep.ExitMore.ending r) = 0 ↔ ∃ s, r = .ok s := by
  cases r <;> simp [Beep.ExitMore.ending, processStatus]

theorem ending_one {S : Type} (r : Except Err S) (h : processStatus (Beep.ExitMore.ending r) ≠ 0) : ∃ e, r = .error e := by
  cases r with
  | ok s => exact absurd rfl h
  | error e => exact ⟨e, rfl⟩

/-- C175 (partial: nobody presses Ctrl-C).  With halt-on-error, when `beep train` ends with status zero the
model is in the output file and the status file, if asked for, reports it without an exception.  With another
status, no file but the output has changed. -/
theorem C175_train_partial (w : TrainCmd.World) (ctx : TrainCmd.Ctx) (hh : ctx.haltOnError = true)
    (o : TrainCmd.TrainOpts) (fs fs' : Files TrainCmd.Content) (e : Ending)
    (h : Beep.ExitMore.train false w ctx o fs = (fs', e)) :
    (processStatus e = 0 → ∃ st, st.created = true ∧ st.traceback = none ∧
      st.output = some (TrainCmd.outputPath w ctx o.output) ∧
      (∀ p, ctx.status = some p → fs' p = some (.trainStatus st)) ∧
      (ctx.status ≠ st.output → ∃ s, fs' (TrainCmd.outputPath w ctx o.output) = some (.model s))) ∧
    (processStatus e ≠ 0 → OnlyChanges fs fs' [some (TrainCmd.outputPath w ctx o.output)]) := by
  simp only [Beep.ExitMore.train, Bool.false_eq_true, if_false, Prod.mk.injEq] at h
  obtain ⟨rfl, rfl⟩ := h
  refine ⟨fun h0 => ?_, fun h1 => ?_⟩
  · obtain ⟨st, hst⟩ := (ending_zero _).mp h0
    have ht : TrainCmd.train w ctx o fs = ((TrainCmd.train w ctx o fs).1, .ok st) := by rw [← hst]
    obtain ⟨_, _, _, _, -, -, -, -, -, -, -, -, c4, hor⟩ := TrainCmd.train_ok ht
    rcases hor with ⟨err, hb, hhalt, -⟩ | ⟨_, _, s, -, -, h4, h5, h6, -, h8, -⟩
    · rw [hh] at hhalt; cases hhalt
    · exact ⟨st, h5, h4, h6, c4, fun hn => ⟨s, h8 (by rw [h6] at hn; exact hn)⟩⟩
  · obtain ⟨err, herr⟩ := ending_one _ h1
    exact TrainCmd.C115_raises w ctx o fs _ err (by rw [← herr])

/-- C175 (partial: nobody presses Ctrl-C).  With halt-on-error, `beep train` ends with status one when the
training raises, and when one of the files cannot be written. -/
theorem C175_train_fails_partial (w : TrainCmd.World) (ctx : TrainCmd.Ctx) (hh : ctx.haltOnError = true)
    (o : TrainCmd.TrainOpts) (fs : Files TrainCmd.Content)
    (hf : (∃ err alphas l1 cf ct, TrainCmd.alphaGrid o.alphaLower o.alphaUpper o.nAlphas = .ok alphas ∧
        TrainCmd.l1List w o.l1Ratios = .ok l1 ∧ fs (w.abspath o.featureFile) = some cf ∧
        fs (w.abspath o.targetFile) = some ct ∧
        TrainCmd.trainBody w o (TrainCmd.kwargs o alphas l1) cf ct = .error err) ∨
      fs (w.abspath o.featureFile) = none ∨ fs (w.abspath o.targetFile) = none ∨
      w.refuses (TrainCmd.outputPath w ctx o.output) ≠ none ∨ ∃ p, ctx.status = some p ∧ w.refuses p ≠ none) :
    processStatus (Beep.ExitMore.train false w ctx o fs).2 = 1 := by
  have hno : ∀ st fs', TrainCmd.train w ctx o fs ≠ (fs', .ok st) := by
    intro st fs' ht
    have hd : ∀ (fs fs1 : Files TrainCmd.Content) p c, TrainCmd.dump w fs p c = .ok fs1 → w.refuses p = none := by
      intro fs fs1 p c hd
      unfold TrainCmd.dump at hd
      split at hd
      · cases hd
      · assumption
    have hrep : ∀ fs fs1 (st st' : TrainCmd.TrainStatus), TrainCmd.report w ctx .trainStatus st fs = (fs1, .ok st') →
        ∀ p, ctx.status = some p → w.refuses p = none := by
      intro fs fs1 st st' hr p hp
      unfold TrainCmd.report at hr
      rw [hp] at hr
      simp only at hr
      split at hr
      · cases hr
      · rename_i hd'
        exact hd _ _ _ _ hd'
    obtain ⟨al, l1, cf, ct, e1, e2, e3, e4, -, -, -, -, -, -⟩ := TrainCmd.train_ok ht
    have hb : ∃ x, TrainCmd.trainBody w o (TrainCmd.kwargs o al l1) cf ct = .ok x := by
      obtain ⟨al', l1', cf', ct', f1, f2, f3, f4, -, -, -, -, -, hor⟩ := TrainCmd.train_ok ht
      rw [e1] at f1; rw [e2] at f2; rw [e3] at f3; rw [e4] at f4
      cases f1; cases f2; cases f3; cases f4
      rcases hor with ⟨err, -, hhalt, -⟩ | ⟨x, y, s, hb, -⟩
      · rw [hh] at hhalt; cases hhalt
      · exact ⟨_, hb⟩
    obtain ⟨⟨x, y⟩, hb⟩ := hb
    unfold TrainCmd.train at ht
    simp only [e1, e2, e3, e4, hb] at ht
    unfold TrainCmd.saveModel at ht
    split at ht
    · cases ht
    split at ht
    · cases ht
    rename_i hdump
    have r1 := hd _ _ _ _ hdump
    have r2 := hrep _ _ _ _ ht
    rcases hf with ⟨err, a', l', cf', ct', f1, f2, f3, f4, f5⟩ | hf | hf | hf | ⟨p, hp, hf⟩
    · rw [e1] at f1; rw [e2] at f2; rw [e3] at f3; rw [e4] at f4
      cases f1; cases f2; cases f3; cases f4
      rw [hb] at f5; cases f5
    · rw [e3] at hf; cases hf
    · rw [e4] at hf; cases hf
    · exact hf r1
    · exact hf (r2 p hp)
  simp only [Beep.ExitMore.train, Bool.false_eq_true, if_false]
  cases hr : (TrainCmd.train w ctx o fs).2 with
  | ok st =>
    have : TrainCmd.train w ctx o fs = ((TrainCmd.train w ctx o fs).1, .ok st) := by rw [← hr]
    exact absurd this (hno st _)
  | error e => rfl

/-- C175 (partial: nobody presses Ctrl-C).  With halt-on-error, when `beep predict` ends with status zero the
predictions are in the output file and the status file, if asked for, reports them without an exception. -/
theorem C175_predict_partial (w : TrainCmd.World) (ctx : TrainCmd.Ctx) (hh : ctx.haltOnError = true)
    (o : TrainCmd.PredictOpts) (fs fs' : Files TrainCmd.Content) (e : Ending)
    (h : Beep.ExitMore.predict false w ctx o fs = (fs', e)) (h0 : processStatus e = 0) :
    ∃ cm cf x st, fs (w.abspath o.modelFile) = some cm ∧ fs (w.abspath o.featureFile) = some cf ∧
      TrainCmd.predictBody w o cm cf = .ok x ∧ st.created = true ∧ st.traceback = none ∧
      st.output = some (TrainCmd.outputPath w ctx o.output) ∧
      (∀ p, ctx.status = some p → fs' p = some (.predictStatus st)) ∧
      (ctx.status ≠ st.output → fs' (TrainCmd.outputPath w ctx o.output) = some (.predictions x.1 x.2)) := by
  simp only [Beep.ExitMore.predict, Bool.false_eq_true, if_false, Prod.mk.injEq] at h
  obtain ⟨rfl, rfl⟩ := h
  obtain ⟨st, hst⟩ := (ending_zero _).mp h0
  have ht : TrainCmd.predictCmd w ctx o fs = ((TrainCmd.predictCmd w ctx o fs).1, .ok st) := by rw [← hst]
  obtain ⟨cm, cf, hm, hf, -, -, -, -, -, h1, hor⟩ := TrainCmd.predictCmd_ok ht
  rcases hor with ⟨err, -, hhalt, -⟩ | ⟨x, hb, h4, h5, h6, h8, -⟩
  · rw [hh] at hhalt; cases hhalt
  · exact ⟨cm, cf, x, st, hm, hf, hb, h5, h4, h6, h1, fun hn => h8 (by rw [h6] at hn; exact hn)⟩

/-- C175 (partial: nobody presses Ctrl-C).  Without halt-on-error, when `beep train` or `beep predict` ends
with status zero, what it was asked for is reported as made or an exception is reported. -/
theorem C175_reported_partial (w : TrainCmd.World) (ctx : TrainCmd.Ctx) (fs : Files TrainCmd.Content) :
    (∀ o fs' e, Beep.ExitMore.train false w ctx o fs = (fs', e) → processStatus e = 0 →
      ∃ st : TrainCmd.TrainStatus, (st.created = true ↔ st.traceback = none) ∧
        ∀ p, ctx.status = some p → fs' p = some (.trainStatus st)) ∧
    (∀ o fs' e, Beep.ExitMore.predict false w ctx o fs = (fs', e) → processStatus e = 0 →
      ∃ st : TrainCmd.PredictStatus, (st.created = true ↔ st.traceback = none) ∧
        ∀ p, ctx.status = some p → fs' p = some (.predictStatus st)) := by
  refine ⟨?_, ?_⟩
  · intro o fs' e h h0
    simp only [Beep.ExitMore.train, Bool.false_eq_true, if_false, Prod.mk.injEq] at h
    obtain ⟨rfl, rfl⟩ := h
    obtain ⟨st, hst⟩ := (ending_zero _).mp h0
    obtain ⟨-, -, -, -, -, c2, -, c4, -⟩ := TrainCmd.C115_status w ctx o fs (TrainCmd.train w ctx o fs).1 st
      (by rw [← hst])
    exact ⟨st, c2, c4⟩
  · intro o fs' e h h0
    simp only [Beep.ExitMore.predict, Bool.false_eq_true, if_false, Prod.mk.injEq] at h
    obtain ⟨rfl, rfl⟩ := h
    obtain ⟨st, hst⟩ := (ending_zero _).mp h0
    obtain ⟨-, -, -, -, -, c2, c4, -⟩ := TrainCmd.C117_status w ctx o fs (TrainCmd.predictCmd w ctx o fs).1 st
      (by rw [← hst])
    exact ⟨st, c2, c4⟩

/-- C175 does not hold: Ctrl-C during training or prediction ends the command with status zero; no model, no
predictions and no status are written. -/
theorem C175_interrupted_violated (w : TrainCmd.World) (ctx : TrainCmd.Ctx) (fs : Files TrainCmd.Content) :
    (∀ o, (∃ alphas, TrainCmd.alphaGrid o.alphaLower o.alphaUpper o.nAlphas = .ok alphas) →
      (∃ l1, TrainCmd.l1List w o.l1Ratios = .ok l1) → fs (w.abspath o.featureFile) ≠ none →
      fs (w.abspath o.targetFile) ≠ none →
      processStatus (Beep.ExitMore.train true w ctx o fs).2 = 0 ∧ (Beep.ExitMore.train true w ctx o fs).1 = fs) ∧
    (∀ o, TrainCmd.badName o.output = false → fs (w.abspath o.modelFile) ≠ none →
      fs (w.abspath o.featureFile) ≠ none →
      processStatus (Beep.ExitMore.predict true w ctx o fs).2 = 0 ∧ (Beep.ExitMore.predict true w ctx o fs).1 = fs) := by
  refine ⟨?_, ?_⟩
  · rintro o ⟨a, ha⟩ ⟨l, hl⟩ hf ht
    obtain ⟨cf, hf⟩ := Option.ne_none_iff_exists'.mp hf
    obtain ⟨ct, ht⟩ := Option.ne_none_iff_exists'.mp ht
    simp only [Beep.ExitMore.train, if_true, ha, hl, hf, ht]
    exact ⟨rfl, trivial⟩
  · intro o hb hf ht
    obtain ⟨cf, hf⟩ := Option.ne_none_iff_exists'.mp hf
    obtain ⟨ct, ht⟩ := Option.ne_none_iff_exists'.mp ht
    simp only [Beep.ExitMore.predict, if_true, hb, Bool.false_eq_true, if_false, hf, ht]
    exact ⟨rfl, trivial⟩

variable {P G : Type}

/-- C175 does not hold for `beep protocol`: with or without halt-on-error, whatever happens to the rows and
whether or not Ctrl-C is pressed, the status is zero as soon as the table and the directory exist and the
status file can be written. -/
theorem C175_protocol_violated (halt : Bool) (stop : Option Nat) (w : ProtocolCmd.World P G) (cwd : Str)
    (statusFile : Option Str) (csvFile : Str) (given : Option Str) (saved : Except Exc Unit)
    (fs : Files (ProtocolCmd.Content P)) (dir : Str) (ht : Target w cwd given dir) :
    processStatus (Beep.ExitMore.protocol halt stop w cwd statusFile csvFile given saved fs).2.2 = 0 ↔
      fs (w.abspath csvFile) ≠ none ∧ w.isDir dir = true ∧ saved = .ok () := by
  rw [ProtocolCmd.target_iff] at ht
  subst ht
  unfold Beep.ExitMore.protocol
  cases hc : fs (w.abspath csvFile) with
  | none => simp [processStatus]
  | some c =>
    by_cases hd : w.isDir (Beep.ProtocolCmd.outDir w cwd given) = true
    · cases saved with
      | ok u => simp [hd, processStatus]
      | error e => simp [hd, processStatus]
    · simp [hd, processStatus]

/-- C175 does not hold for `beep protocol`: Ctrl-C after some rows leaves the files of these rows, a status
that lists none of them, and the exit status zero. -/
theorem C175_protocol_interrupted_violated (halt : Bool) (k : Nat) (w : ProtocolCmd.World P G) (cwd : Str)
    (statusFile : Option Str) (csvFile : Str) (given : Option Str) (fs : Files (ProtocolCmd.Content P)) (dir : Str)
    (c : ProtocolCmd.Content P) (rows : List Generate.Row) (hc : fs (w.abspath csvFile) = some c)
    (ht : Target w cwd given dir) (hd : w.isDir dir = true) (hr : w.read c = .ok rows)
    (hh : ∀ (j : Nat) r, j < k → rows[j]? = some r → Handled w.env dir j r) :
    ∃ fs' st, Beep.ExitMore.protocol halt (some k) w cwd statusFile csvFile given (.ok ()) fs = (fs', some st, .returned) ∧
      st.protocol = [] ∧ st.traceback = some .interrupt ∧
      ∀ name p, Final w dir (rows.take k) name p → statusFile ≠ some name → fs' name = some (.protocol p) := by
  have hh' : ∀ (j : Nat) r, (rows.take k)[j]? = some r → Handled w.env dir j r := by
    intro j r hj
    have hlt : j < (rows.take k).length := (List.getElem?_eq_some_iff.mp hj).1
    have hjk : j < k := by rw [List.length_take] at hlt; omega
    exact hh j r hjk (by rw [← hj, List.getElem?_take_of_lt hjk])
  obtain ⟨s, h1, h2, -⟩ := Proof.Generate.loop_handled w.env dir 0 (rows.take k) {}
    (fun j r hj => by rw [Nat.zero_add]; exact hh' j r hj)
  simp only [List.nil_append] at h2
  rw [ProtocolCmd.target_iff] at ht
  subst ht
  refine ⟨_, _, by
    unfold Beep.ExitMore.protocol Beep.ExitMore.generateStopped
    simp only [hc, hd, if_true, hr, h1]
    rfl, rfl, rfl, ?_⟩
  intro name p hf hst
  have hw := ProtocolCmd.final_written w _ (rows.take k) hh' fs name p hf
  rw [← h2] at hw
  rw [ProtocolCmd.report_other _ _ _ _ hst]
  exact hw

/-! ### Concrete cases -/

/-- the demo of C114 with halt-on-error -/
def halting : Beep.TrainCmd.Ctx := { TrainCmd.demoCtx with haltOnError := true }

/-- statuses of `beep train`: a model is made; a threshold raises, with and without halting; a missing file;
Ctrl-C -/
example : processStatus (Beep.ExitMore.train false TrainCmd.demoWorld halting TrainCmd.demoTrain TrainCmd.demoFiles).2 = 0 ∧
    processStatus (Beep.ExitMore.train false TrainCmd.demoWorld halting
      { TrainCmd.demoTrain with featureThresh := some (1 / 2) } TrainCmd.demoFiles).2 = 1 ∧
    processStatus (Beep.ExitMore.train false TrainCmd.demoWorld TrainCmd.demoCtx
      { TrainCmd.demoTrain with featureThresh := some (1 / 2) } TrainCmd.demoFiles).2 = 0 ∧
    processStatus (Beep.ExitMore.train false TrainCmd.demoWorld TrainCmd.demoCtx
      { TrainCmd.demoTrain with featureFile := "q".toList } TrainCmd.demoFiles).2 = 1 ∧
    processStatus (Beep.ExitMore.train true TrainCmd.demoWorld halting TrainCmd.demoTrain TrainCmd.demoFiles).2 = 0 := by
  decide +kernel

/-- statuses of `beep predict`: with the model; before there is one; with the targets for a model; Ctrl-C -/
example :
    let fs := (Beep.ExitMore.train false TrainCmd.demoWorld halting TrainCmd.demoTrain TrainCmd.demoFiles).1
    processStatus (Beep.ExitMore.predict false TrainCmd.demoWorld halting TrainCmd.demoPredict fs).2 = 0 ∧
    processStatus (Beep.ExitMore.predict false TrainCmd.demoWorld halting TrainCmd.demoPredict TrainCmd.demoFiles).2 = 1 ∧
    processStatus (Beep.ExitMore.predict false TrainCmd.demoWorld halting
      { TrainCmd.demoPredict with modelFile := "t".toList } fs).2 = 1 ∧
    processStatus (Beep.ExitMore.predict true TrainCmd.demoWorld halting TrainCmd.demoPredict fs).2 = 0 := by
  decide +kernel

/-- `beep protocol` with halt-on-error: two rows that are not supported, a row that raises, and Ctrl-C after
three rows all end with status zero -/
example :
    processStatus (Beep.ExitMore.protocol true none ProtocolCmd.demoWorld "/".toList none "/c.csv".toList
      (some "/o".toList) (.ok ()) (ProtocolCmd.demoFiles "good")).2.2 = 0 ∧
    processStatus (Beep.ExitMore.protocol true none ProtocolCmd.demoWorld "/".toList none "/c.csv".toList
      (some "/o".toList) (.ok ()) (ProtocolCmd.demoFiles "bad")).2.2 = 0 ∧
    (match Beep.ExitMore.protocol true (some 3) ProtocolCmd.demoWorld "/".toList none "/c.csv".toList
        (some "/o".toList) (.ok ()) (ProtocolCmd.demoFiles "good") with
      | (fs, some st, e) => (match fs "/o/procedures/PreDiag_000003.000".toList with
            | some (.protocol p) => p
            | _ => [], match fs "/o/settings/Form_000123.mps".toList with
            | some _ => true
            | none => false, st.protocol, st.traceback, processStatus e)
      | (_, none, e) => ([], false, [], none, processStatus e)) =
      ("PreDiagdiag".toList, false, [], some .interrupt, 0) := by
  decide +kernel

end Beep.Props.ExitMore
