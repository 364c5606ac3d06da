import Verif.Proof.Generate
/-
C56: batch generation of protocol files.
-/
namespace Beep.Props.Generate
open Beep
open _root_.Beep.Batch (Exc join)
open Generate Spec.Generate Proof.Generate

variable {P G : Type}

/-- C56: when no builder raises, every row leaves exactly one entry, decided by that row alone: a
generated file when its protocol can be made, a failure when its template is not supported.  The files
are those of the generated rows in order, the failures are as many as the other rows, the result is
success iff there is no failure, and the message counts them.
Missing: rows whose builder raises (see below). -/
theorem C56_accounts_partial (env : Env P G) (dir : Str) (rows : List Row)
    (hh : ∀ (i : Nat) r, rows[i]? = some r → Handled env dir i r) :
    ∃ (res : Result P) (entries : List (Option (Str × P))), generate env dir rows = .ok res ∧
      entries.length = rows.length ∧
      (∀ (i : Nat) r, rows[i]? = some r →
        (∀ x, entries[i]? = some (some x) ↔ Generates env dir i r x.1 x.2) ∧
        (entries[i]? = some none ↔ Unsupported env i r)) ∧
      res.written = entries.filterMap id ∧
      res.generated = (entries.filterMap id).map Prod.fst ∧
      res.failures.length = (entries.filter Option.isNone).length ∧
      (res.success = true ↔ res.failures = []) ∧
      res.names.length = res.generated.length ∧
      res.message = (res.generated.length, res.failures.length, rows.length) := by
  obtain ⟨s, h1, h2, h3, h4, h5, h6⟩ := loop_handled env dir 0 rows {}
    (fun j r hj => by rw [Nat.zero_add]; exact hh j r hj)
  simp only [List.nil_append] at h2 h3
  simp only [List.length_nil, Nat.zero_add] at h4 h6
  have hn : ∀ l : List (Row × Nat), l.filterMap (fun x => made env dir x.2 x.1) =
      (l.map (fun x => made env dir x.2 x.1)).filterMap id := by
    intro l; rw [List.filterMap_map]; rfl
  have hf : ∀ l : List (Row × Nat), (l.filter (fun x => (made env dir x.2 x.1).isNone)).length =
      ((l.map (fun x => made env dir x.2 x.1)).filter Option.isNone).length := by
    intro l; rw [List.filter_map, List.length_map]; rfl
  refine ⟨_, (rows.zipIdx 0).map (fun x => made env dir x.2 x.1), by unfold generate; rw [h1],
    by simp, ?_, ?_, ?_, ?_, ?_, ?_, ?_⟩
  · intro i r hr
    have he : ((rows.zipIdx 0).map (fun x => made env dir x.2 x.1))[i]? = some (made env dir i r) := by
      rw [List.getElem?_map, List.getElem?_zipIdx, hr]; simp
    rw [he]
    simp only [Option.some.injEq]
    exact ⟨fun x => made_iff env dir i r (hh i r hr) x, made_none env dir i r (hh i r hr)⟩
  · rw [← hn]; exact h2
  · rw [← hn]; exact h3
  · rw [← hf]; exact h4
  · simp only
    rw [h5]
    simp only [true_and]
    rw [← List.length_eq_zero_iff, ← List.length_eq_zero_iff, h4]
  · simp only; rw [h6, h3, List.length_map]
  · simp only
    have : s.generated.length + s.failures.length = rows.length := by
      rw [h3, h4, List.length_map]
      have hcount : ∀ l : List (Row × Nat), (l.filterMap (fun x => made env dir x.2 x.1)).length +
          (l.filter (fun x => (made env dir x.2 x.1).isNone)).length = l.length := by
        intro l
        induction l with
        | nil => rfl
        | cons x l ih =>
          cases hm : made env dir x.2 x.1 with
          | none => simp [hm]; omega
          | some y => simp [hm]; omega
      rw [hcount]; simp
    rw [this]

theorem loop_failures (env : Env P G) (dir : Str) (i : Nat) (rows : List Row) (s s' : State P)
    (h : loop env dir i rows s = (s', none)) :
    ∃ (idx : List Nat) (fs : List Failure), idx.Pairwise (· < ·) ∧
      (∀ j, j ∈ idx ↔ ∃ k r f, j = i + k ∧ rows[k]? = some r ∧ row env dir j r = .ok (.fail f)) ∧
      s'.failures = s.failures ++ fs ∧
      List.Forall₂ (fun j f => ∃ k r, j = i + k ∧ rows[k]? = some r ∧ row env dir j r = .ok (.fail f))
        idx fs := by
  induction rows generalizing i s with
  | nil =>
    simp only [loop, Prod.mk.injEq, and_true] at h
    exact ⟨[], [], List.Pairwise.nil, by simp, by simp [h], List.Forall₂.nil⟩
  | cons r rows ih =>
    have lift : ∀ (j : Nat) (f : Failure), (∃ k q, j = i + 1 + k ∧ rows[k]? = some q ∧
        row env dir j q = .ok (.fail f)) → ∃ k q, j = i + k ∧ (r :: rows)[k]? = some q ∧
        row env dir j q = .ok (.fail f) := by
      rintro j f ⟨k, q, hj, hq, hf⟩
      exact ⟨k + 1, q, by omega, by simpa using hq, hf⟩
    have other : (∀ f, row env dir i r ≠ .ok (.fail f)) → ∀ (idx : List Nat),
        (∀ j, j ∈ idx ↔ ∃ k q f, j = i + 1 + k ∧ rows[k]? = some q ∧ row env dir j q = .ok (.fail f)) →
        ∀ j, j ∈ idx ↔ ∃ k q f, j = i + k ∧ (r :: rows)[k]? = some q ∧ row env dir j q = .ok (.fail f) := by
      intro hne idx hidx j
      rw [hidx]
      constructor
      · rintro ⟨k, q, f, hj, hq, hf⟩
        exact ⟨k + 1, q, f, by omega, by simpa using hq, hf⟩
      · rintro ⟨k, q, f, hj, hq, hf⟩
        cases k with
        | zero =>
          simp only [List.getElem?_cons_zero, Option.some.injEq] at hq
          rw [hj, Nat.add_zero, ← hq] at hf
          exact absurd hf (hne f)
        | succ k => exact ⟨k, q, f, by omega, by simpa using hq, hf⟩
    rw [loop] at h
    cases hr : row env dir i r with
    | error e => rw [hr] at h; simp at h
    | ok m =>
      rw [hr] at h
      cases m with
      | fail f =>
        simp only at h
        obtain ⟨idx, fs, h1, h2, h3, h4⟩ := ih (i + 1) _ h
        refine ⟨i :: idx, f :: fs, ?_, ?_, by rw [h3]; simp, ?_⟩
        · rw [List.pairwise_cons]
          refine ⟨?_, h1⟩
          intro j hj
          obtain ⟨k, _, _, hk, -⟩ := (h2 j).mp hj
          omega
        · intro j
          rw [List.mem_cons, h2]
          constructor
          · rintro (e | ⟨k, q, g, hj, hq, hf⟩)
            · exact ⟨0, r, f, by omega, rfl, by rw [e]; exact hr⟩
            · exact ⟨k + 1, q, g, by omega, by simpa using hq, hf⟩
          · rintro ⟨k, q, g, hj, hq, hf⟩
            cases k with
            | zero => left; omega
            | succ k => exact Or.inr ⟨k, q, g, by omega, by simpa using hq, hf⟩
        · exact List.Forall₂.cons ⟨0, r, by omega, rfl, hr⟩ (h4.imp (fun j g hj => lift j g hj))
      | file name p =>
        simp only at h
        split at h
        · simp at h
        · obtain ⟨idx, fs, h1, h2, h3, h4⟩ := ih (i + 1) _ h
          exact ⟨idx, fs, h1, other (by intro f; rw [hr]; simp) idx h2, h3,
            h4.imp (fun j g hj => lift j g hj)⟩

theorem row_reports (env : Env P G) (dir : Str) (i : Nat) (r : Row) (f : Failure)
    (h : row env dir i r = .ok (.fail f)) : Reports r f := by
  have h0 := containsSub_iff ".000".toList r.template
  have h1 := containsSub_iff ".sdu".toList r.template
  unfold Reports
  unfold row at h
  split at h
  · rename_i hc
    rw [if_neg (fun x => x.2 (h0.mp hc))]
    split at h
    · cases h
    · cases h; exact ⟨rfl, rfl⟩
    · cases h
  · rename_i hc
    split at h
    · split at h <;> cases h
    · split at h
      · rename_i hs
        rw [if_pos ⟨h1.mp hs, fun x => hc (h0.mpr x)⟩]
        cases h; rfl
      · rename_i hs
        rw [if_neg (fun x => hs (h1.mpr x.1))]
        cases h; exact ⟨rfl, rfl⟩

/-- C56: the failures of a run that ends are exactly those of the rows with an unsupported template, in
the order of the table, each with the reason for that row -/
theorem C56_reports (env : Env P G) (dir : Str) (rows : List Row) (res : Result P)
    (h : generate env dir rows = .ok res) :
    ∃ idx : List Nat, idx.Pairwise (· < ·) ∧
      (∀ i, i ∈ idx ↔ ∃ r, rows[i]? = some r ∧ Unsupported env i r) ∧
      List.Forall₂ (fun i f => ∃ r, rows[i]? = some r ∧ Reports r f) idx res.failures := by
  unfold generate at h
  split at h
  · cases h
  · rename_i s hs
    cases h
    obtain ⟨idx, fs, h1, h2, h3, h4⟩ := loop_failures env dir 0 rows {} s hs
    refine ⟨idx, h1, ?_, ?_⟩
    · intro i
      rw [h2]
      constructor
      · rintro ⟨k, r, f, hi, hr, hf⟩
        rw [Nat.zero_add] at hi
        subst hi
        exact ⟨r, hr, (row_fail env dir i r).mp ⟨f, hf⟩⟩
      · rintro ⟨r, hr, hu⟩
        obtain ⟨f, hf⟩ := (row_fail env dir i r).mpr hu
        exact ⟨i, r, f, by omega, hr, hf⟩
    · simp only at h3 ⊢
      rw [h3, List.nil_append]
      refine h4.imp ?_
      rintro j f ⟨k, r, hj, hr, hf⟩
      rw [Nat.zero_add] at hj
      subst hj
      exact ⟨r, hr, row_reports env dir j r f hf⟩

/-- C56 fails when the builder of a row raises: the exception leaves the function, nothing is reported
about any row, and the rows from that one on are not generated, whatever they are. -/
theorem C56_raises_violated (env : Env P G) (dir : Str) (rows : List Row) (k : Nat) (r : Row)
    (hk : rows[k]? = some r) (hb : ¬ Handled env dir k r) :
    ∃ s e, generate env dir rows = .error e ∧ loop env dir 0 rows {} = (s, some e) ∧
      ∀ x ∈ s.written, ∃ j r', j < k ∧ rows[j]? = some r' ∧ made env dir j r' = some x := by
  obtain ⟨s, e, h1, h2⟩ := loop_raises env dir 0 rows {} k r hk (by rw [Nat.zero_add]; exact hb)
  refine ⟨s, e, by unfold generate; rw [h1], h1, ?_⟩
  intro x hx
  rcases h2 x hx with h | ⟨j, r', hj, hj2, hj3⟩
  · cases h
  · rw [Nat.zero_add] at hj3; exact ⟨j, r', hj, hj2, hj3⟩

/-! ### Concrete cases -/

/-- a protocol is a text; the builder for driving profiles raises -/
def demoEnv : Env Str Str where
  length := fun t => .ok (if t = "EXP.000".toList then some 23 else if t = "diagnosticV3.000".toList then some 96
    else none)
  hasDiag := true
  diag := fun _ _ => .ok "diag".toList
  fromExp := fun _ r => .ok (r.project ++ "exp".toList)
  regcyclev2 := fun _ r => .ok r.project
  diagcyclev2 := fun _ _ p g => .ok (p ++ g)
  charging := fun _ r => .ok r.project
  driving := fun _ _ => .error (.other "KeyError".toList)
  regcyclev3 := fun _ r => .ok r.project
  diagcyclev3 := fun _ _ p g => .ok (p ++ g)
  formation := fun _ r => .ok r.project
  save := fun _ _ => none

def demoRows : List Row :=
  [⟨"EXP.000".toList, "Test".toList, 1⟩, ⟨"unknown.000".toList, "Test".toList, 2⟩,
   ⟨"diagnosticV3.000".toList, "PreDiag".toList, 3⟩, ⟨"fast.sdu".toList, "Test".toList, 4⟩,
   ⟨"formationV1.mps".toList, "Form".toList, 123⟩]

/-- the outcome as plain text -/
def shown (x : Except Exc (Result Str)) : Option (List String × Nat × Bool) :=
  match x with
  | .ok r => some (r.generated.map String.ofList, r.failures.length, r.success)
  | .error _ => none

/-- three files and two failures -/
example : shown (generate demoEnv "/o".toList demoRows) =
    some (["/o/procedures/Test_000001.000", "/o/procedures/PreDiag_000003.000",
      "/o/settings/Form_000123.mps"], 2, false) := by decide +kernel

/-- the body of the loop did not raise -/
def went (i : Nat) (r : Row) : Bool :=
  match row demoEnv "/o".toList i r with
  | .ok _ => true
  | .error _ => false

theorem went_iff (i : Nat) (r : Row) : went i r = true ↔ Handled demoEnv "/o".toList i r := by
  unfold went
  cases hr : row demoEnv "/o".toList i r with
  | error e =>
    simp only [Bool.false_eq_true, false_iff]
    rintro (⟨n, p, h⟩ | h)
    · have := ((row_file _ _ _ _ _ _).mpr h).1
      rw [hr] at this; cases this
    · obtain ⟨f, hf⟩ := (row_fail demoEnv "/o".toList _ _).mpr h
      rw [hr] at hf; cases hf
  | ok m =>
    simp only [true_iff]
    cases m with
    | fail f => exact Or.inr ((row_fail _ _ _ _).mp ⟨f, hr⟩)
    | file n p => exact Or.inl ⟨n, p, (row_file _ _ _ _ _ _).mp ⟨hr, rfl⟩⟩

/-- the rows of the example can all be handled -/
theorem demo_handled (i : Nat) (r : Row) (h : demoRows[i]? = some r) : Handled demoEnv "/o".toList i r := by
  rw [← went_iff]
  have key : ∀ x ∈ demoRows.zipIdx, went x.2 x.1 = true := by decide +kernel
  exact key (r, i) (by rw [List.mem_iff_getElem?]; exact ⟨i, by rw [List.getElem?_zipIdx, h]; simp⟩)

/-- a row whose builder raises is not handled, and one such row ends the whole run -/
example : ¬ Handled demoEnv "/o".toList 1 ⟨"diagnosticV3.000".toList, "Drive".toList, 7⟩ := by
  rw [← went_iff]
  decide +kernel

example : shown (generate demoEnv "/o".toList
    (demoRows ++ [⟨"diagnosticV3.000".toList, "Drive".toList, 7⟩])) = none := by decide +kernel

/-- two rows with the same project and number: both count as generated, into one file -/
example : shown (generate demoEnv "/o".toList
    [⟨"EXP.000".toList, "Test".toList, 1⟩, ⟨"diagnosticV3.000".toList, "Test".toList, 1⟩]) =
    some (["/o/procedures/Test_000001.000", "/o/procedures/Test_000001.000"], 0, true) := by decide +kernel

end Beep.Props.Generate
