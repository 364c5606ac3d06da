import Verif.Spec.SharedMatrix
import Verif.Props.Splitter
import Verif.Props.LinearModel
/-
C173: a feature matrix handed to learning objects stays as it was.
-/
namespace Beep.Props.SharedMatrix
open Beep Pandas Text Table SharedMatrix Spec.SharedMatrix Proof.Table

variable {H : Type}

theorem same_refl (m : Table) : SameButShorterNames m m :=
  ⟨rfl, rfl, fun _ c h => ⟨c, h, rfl, List.prefix_refl _⟩⟩

theorem same_trans {a b c : Table} (h : SameButShorterNames a b) (k : SameButShorterNames b c) :
    SameButShorterNames a c := by
  refine ⟨h.1.trans k.1, h.2.1.trans k.2.1, fun i x hx => ?_⟩
  obtain ⟨y, hy, h1, h2⟩ := k.2.2 i x hx
  obtain ⟨z, hz, h3, h4⟩ := h.2.2 i y hy
  exact ⟨z, hz, h3.trans h1, h4.trans h2⟩

theorem same_rename (m : Table) (f : Str → Str) (hf : ∀ s, f s <+: s) : SameButShorterNames (m.rename f) m := by
  refine ⟨rfl, by simp [Table.rename], fun i c h => ⟨{ c with name := f c.name }, ?_, rfl, hf _⟩⟩
  simp [Table.rename, h]

theorem stripName_prefix (s : Str) : stripName s <+: s := join_take_prefix s 1

theorem stripLast_prefix (s : Str) : stripLast s <+: s := by
  unfold stripLast
  rw [List.dropLast_eq_take]
  cases h : (splitD s).length - 1 with
  | zero => simp [join]
  | succ n => exact join_take_prefix s n

theorem use_same (u : Use H) (m : Table) : SameButShorterNames (use u m).1 m := by
  cases u with
  | splitter env a =>
    simp only [use]
    split
    · exact same_rename m _ stripName_prefix
    · exact same_refl m
  | experiment env a tm => exact same_refl m
  | predict e h =>
    simp only [use, LinearModel.predict]
    split
    · exact same_refl m
    · dsimp only
      split
      · exact same_rename m _ stripLast_prefix
      · exact same_refl m

/-- C173: whatever is done with the matrix, and whatever fails, its samples, its cells and the number
and the order of its columns stay; a name can only lose its end. -/
theorem C173_cells_partial (us : List (Use H)) (m : Table) : SameButShorterNames (uses us m).1 m := by
  induction us generalizing m with
  | nil => exact same_refl m
  | cons u us ih => exact same_trans (ih (use u m).1) (use_same u m)

theorem use_untouched {u : Use H} {m : Table} (h : IsExperiment u ∨ ¬ Homogenizes u) : (use u m).1 = m := by
  cases u with
  | splitter env a =>
    rcases h with h | h
    · exact h.elim
    · simp only [Homogenizes] at h
      simp [use, h]
  | experiment env a tm => rfl
  | predict e hm =>
    rcases h with h | h
    · exact h.elim
    · simp only [Homogenizes] at h
      simp only [use, LinearModel.predict]
      split
      · rfl
      · dsimp only
        split
        · rename_i hh
          exfalso
          apply h
          cases hm with
          | none => exact .inr ⟨rfl, hh⟩
          | some b => left; simp at hh; rw [hh]
        · rfl

theorem uses_fixed {us : List (Use H)} {m : Table} (h : ∀ u ∈ us, (use u m).1 = m) :
    uses us m = (m, us.map (fun u => (use u m).2)) := by
  induction us with
  | nil => rfl
  | cons u us ih =>
    simp only [uses, h u List.mem_cons_self, List.map_cons]
    rw [ih (fun v hv => h v (List.mem_cons_of_mem _ hv))]

/-- C173: when every splitter and every prediction keeps the parameter hashes, the matrix stays as it
was and every call returns what it returns on a fresh matrix. -/
theorem C173_untouched_partial (us : List (Use H)) (m : Table)
    (h : ∀ u ∈ us, IsExperiment u ∨ ¬ Homogenizes u) :
    (uses us m).1 = m ∧ (uses us m).2 = us.map (fun u => (use u m).2) := by
  rw [uses_fixed (fun u hu => use_untouched (h u hu))]
  exact ⟨rfl, rfl⟩

theorem construct_renamed (env : Splitter.Env) (a : Splitter.Args) (m : Table) (h : a.homogenize = true) :
    Splitter.construct env a (m.rename stripName) = Splitter.construct env a m := by
  unfold Splitter.construct
  simp only [h, if_true, rename_idem]

/-- C173: homogenizing splitters do not disturb each other: in any number of them made from one matrix,
each is what it is when made from a fresh matrix. -/
theorem C173_splitters_partial (us : List (Use H)) (m : Table)
    (h : ∀ u ∈ us, IsSplitter u ∧ Homogenizes u) :
    (uses us m).2 = us.map (fun u => (use u m).2) := by
  cases us with
  | nil => rfl
  | cons u us =>
    obtain ⟨h1, h2⟩ := h u List.mem_cons_self
    cases u with
    | experiment => exact h1.elim
    | predict => exact h1.elim
    | splitter env a =>
      simp only [Homogenizes] at h2
      simp only [uses, use, h2, if_true, List.map_cons]
      rw [uses_fixed]
      · congr 1
        apply List.map_congr_left
        intro v hv
        obtain ⟨h3, h4⟩ := h v (List.mem_cons_of_mem _ hv)
        cases v with
        | experiment => exact h3.elim
        | predict => exact h3.elim
        | splitter env' a' => simp only [use, construct_renamed env' a' m h4]
      · intro v hv
        obtain ⟨h3, h4⟩ := h v (List.mem_cons_of_mem _ hv)
        cases v with
        | experiment => exact h3.elim
        | predict => exact h3.elim
        | splitter env' a' =>
          simp only [Homogenizes] at h4
          simp only [use, h4, if_true, rename_idem]

/-- a name of more than two parts is not a name without its hash -/
theorem stripName_ne {s : Str} (h : 2 < (splitD s).length) : stripName s ≠ s := by
  intro e
  have := splitD_join_take s 1
  unfold stripName at e
  rw [e] at this
  rw [this] at h
  simp at h

/-- C173 does not hold: a splitter with the standard argument renames the columns of the caller's
matrix as soon as one name has a parameter hash, also when it then refuses to be made. -/
theorem C173_renamed_violated (env : Splitter.Env) (a : Splitter.Args) (m : Table)
    (ha : a.homogenize = true) (c : Col) (hc : c ∈ m.cols) (hp : 2 < (splitD c.name).length) :
    (uses [Use.splitter (H := H) env a] m).1 ≠ m := by
  intro e
  simp only [uses, use, ha, if_true] at e
  obtain ⟨i, hi, hx⟩ := List.mem_iff_getElem.mp hc
  have h1 := congrArg (fun t : Table => (t.cols[i]?).map Col.name) e
  simp [Table.rename, hi, hx] at h1
  exact stripName_ne hp h1

/-! ### Concrete cases -/

/-- an arbitrary library -/
def demoLib : Splitter.Env where
  shuffle := fun _ n => List.range n
  str := fun _ => "x".toList
  strSeries := fun r _ => r

/-- the features and targets of the demo splitter -/
def demoSplit : Splitter.Args :=
  { features := ["a::F".toList], targets := ["b::F".toList] }

/-- a splitter that keeps the hashes -/
def demoKeep : Splitter.Args :=
  { features := ["a::F::h".toList], targets := ["b::F::h".toList], homogenize := false }

/-- the feature labels of an experiment that was made -/
def labels (x : Except Err (Outcome Unit)) : Option (List String) :=
  match x with
  | .ok (.experiment e) => some (e.featureLabels.map String.ofList)
  | _ => none

/-- the number of samples and the labels of a splitter that was made -/
def split (x : Except Err (Outcome Unit)) : Option (List String × List String) :=
  match x with
  | .ok (.splitter s) => some (s.X.rows.map String.ofList, s.featureLabels.map String.ofList)
  | _ => none

/-- the experiment of the demo -/
def demoExp : Use Unit := .experiment LinearModel.demoEnv LinearModel.demoArgs LinearModel.demoTM

/-- C173 does not hold: the same experiment on the same matrix has other features after a splitter was
made from the matrix, one of them named after its operation alone. -/
theorem C173_history_violated :
    (uses [demoExp] LinearModel.demoFM).2.map labels = [some ["a::F", "b::F"]] ∧
    (uses [.splitter demoLib demoSplit, demoExp] LinearModel.demoFM).2.map labels = [none, some ["a", "b"]] := by
  decide +kernel

/-- the hypotheses of the theorems above are met: both splitters are made, and a name has three parts -/
example : (uses [Use.splitter demoLib demoSplit, Use.splitter demoLib demoSplit] LinearModel.demoFM).2.map split
    = [some (["r1", "r2", "r3", "r4"], ["a::F"]), some (["r1", "r2", "r3", "r4"], ["a::F"])] := by
  decide +kernel

example : (∃ c ∈ LinearModel.demoFM.cols, 2 < (splitD c.name).length) ∧
    (uses [demoExp, .splitter demoLib demoKeep, demoExp] LinearModel.demoFM).2.map
        (fun x => (labels x, split x)) =
      [(some ["a::F", "b::F"], none), (none, some (["r1", "r2", "r3", "r4"], ["a::F::h"])),
       (some ["a::F", "b::F"], none)] := by
  refine ⟨⟨_, List.mem_cons_self, ?_⟩, ?_⟩
  · decide +kernel
  · decide +kernel

end Beep.Props.SharedMatrix
