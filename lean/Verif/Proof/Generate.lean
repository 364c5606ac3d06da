import Verif.Proof.Base
import Verif.Proof.Py
import Verif.Spec.Generate
/-
Lemmas about the generation of protocol files.
-/
namespace Beep.Proof.Generate
open Beep
open _root_.Beep.Batch (Exc join)
open Generate Spec.Generate

variable {P G : Type}

theorem diagOf_cases (env : Env P G) (i : Nat) (r : Row) :
    (∃ e, diagOf env i r = .error e ∧ env.hasDiag = true ∧ env.diag i r = .error e) ∨
    (∃ g, diagOf env i r = .ok (some g) ∧ env.hasDiag = true ∧ env.diag i r = .ok g) ∨
    (diagOf env i r = .ok none ∧ env.hasDiag = false) := by
  unfold diagOf
  cases h : env.hasDiag with
  | false => simp
  | true =>
    cases h2 : env.diag i r with
    | error e => simp
    | ok g => simp

theorem maccor_some (env : Env P G) (i : Nat) (r : Row) (p : P) :
    maccor env i r = .ok (some p) ↔ Procedures env i r p := by
  unfold maccor
  constructor
  · intro h
    split at h
    · cases h
    rename_i len hlen
    rcases diagOf_cases env i r with ⟨e, hd, _⟩ | ⟨g, hd, h1, h2⟩ | ⟨hd, h1⟩
    · rw [hd] at h; cases h
    · rw [hd] at h
      simp only [useDiag] at h
      split at h
      · rename_i hc
        cases hx : env.fromExp i r with
        | error e => rw [hx] at h; cases h
        | ok q => rw [hx] at h; cases h; exact .exp _ (by rw [hlen, hc.1]) hc.2 (fun _ => ⟨g, h2⟩) hx
      split at h
      · rename_i hc
        cases hx : env.regcyclev2 i r with
        | error e => rw [hx] at h; cases h
        | ok q =>
          rw [hx] at h
          simp only at h
          cases hy : env.diagcyclev2 i r q g with
          | error e => rw [hy] at h; cases h
          | ok q' => rw [hy] at h; cases h; exact .v2 _ _ g (by rw [hlen, hc]) h1 h2 hx hy
      split at h
      · rename_i hc
        split at h
        · cases h
        rename_i q hx
        cases hy : env.diagcyclev3 i r q g with
        | error e => rw [hy] at h; cases h
        | ok q' =>
          rw [hy] at h; cases h
          split at hx
          · rename_i hp; exact .charging _ _ g (by rw [hlen, hc]) h1 h2 hp hx hy
          split at hx
          · rename_i hp; exact .driving _ _ g (by rw [hlen, hc]) h1 h2 hp hx hy
          · rename_i hp1 hp2; exact .regular _ _ g (by rw [hlen, hc]) h1 h2 hp1 hp2 hx hy
      · cases h
    · rw [hd] at h
      simp only [useDiag] at h
      split at h
      · rename_i hc
        cases hx : env.fromExp i r with
        | error e => rw [hx] at h; cases h
        | ok q =>
          rw [hx] at h; cases h
          exact .exp _ (by rw [hlen, hc.1]) hc.2 (by intro h; rw [h1] at h; cases h) hx
      split at h
      · split at h <;> cases h
      split at h
      · split at h <;> cases h
      · cases h
  · intro h
    rcases h with ⟨_, hl, ht, hd, hx⟩ | ⟨p, _, g, hl, h1, h2, hx, hy⟩ | ⟨p, _, g, hl, h1, h2, hp, hx, hy⟩ |
      ⟨p, _, g, hl, h1, h2, hp, hx, hy⟩ | ⟨p, _, g, hl, h1, h2, hp, hp', hx, hy⟩
    · rw [hl]
      rcases diagOf_cases env i r with ⟨e, hd', h1, h2⟩ | ⟨g, hd', _⟩ | ⟨hd', _⟩
      · obtain ⟨g, hg⟩ := hd h1; rw [hg] at h2; cases h2
      · rw [hd']; simp [ht, hx, Except.map]
      · rw [hd']; simp [ht, hx, Except.map]
    · have hd' : diagOf env i r = .ok (some g) := by simp [diagOf, h1, h2]
      rw [hl, hd']; simp [useDiag, hx, hy, Except.map]
    · have hd' : diagOf env i r = .ok (some g) := by simp [diagOf, h1, h2]
      rw [hl, hd']; simp [useDiag, hp, hx, hy, Except.map]
    · have hd' : diagOf env i r = .ok (some g) := by simp [diagOf, h1, h2]
      rw [hl, hd']; simp [useDiag, hp, hx, hy, Except.map]
    · have hd' : diagOf env i r = .ok (some g) := by simp [diagOf, h1, h2]
      rw [hl, hd']
      have hp1 : ¬ r.project = ['R', 'a', 'p', 'i', 'd', 'C'] := hp
      have hp2 : ¬ r.project = ['D', 'r', 'i', 'v', 'e'] := hp'
      simp [useDiag, hp1, hp2, hx, hy, Except.map]

theorem maccor_none (env : Env P G) (i : Nat) (r : Row) : maccor env i r = .ok none ↔
    (env.hasDiag = true → ∃ g, env.diag i r = .ok g) ∧
    ∃ len, env.length r.template = .ok len ∧ len ≠ some 72 ∧ len ≠ some 96 ∧
      ¬ (len = some 23 ∧ r.template = "EXP.000".toList) := by
  unfold maccor
  constructor
  · intro h
    split at h
    · cases h
    rename_i len hlen
    split at h
    · cases h
    rename_i g hg
    refine ⟨?_, len, hlen, ?_⟩
    · intro h1
      rcases diagOf_cases env i r with ⟨e, hd', _⟩ | ⟨g', hd', _, h2⟩ | ⟨_, h2⟩
      · rw [hd'] at hg; cases hg
      · exact ⟨g', h2⟩
      · rw [h1] at h2; cases h2
    · split at h
      · cases hx : env.fromExp i r <;> rw [hx] at h <;> cases h
      rename_i hc
      split at h
      · split at h
        · cases h
        · split at h
          · cases h
          · rename_i p _ _ g' _
            cases hx : env.diagcyclev2 i r p g' <;> rw [hx] at h <;> cases h
      rename_i hc2
      split at h
      · split at h
        · cases h
        · split at h
          · cases h
          · rename_i p _ _ g' _
            cases hx : env.diagcyclev3 i r p g' <;> rw [hx] at h <;> cases h
      · rename_i hc3; exact ⟨hc2, hc3, hc⟩
  · rintro ⟨hd, len, hl, h72, h96, h23⟩
    rw [hl]
    rcases diagOf_cases env i r with ⟨e, hd', h1, h2⟩ | ⟨g, hd', _⟩ | ⟨hd', _⟩
    · obtain ⟨g, hg⟩ := hd h1; rw [hg] at h2; cases h2
    · simp only [hd', if_neg h23, if_neg h72, if_neg h96]
    · simp only [hd', if_neg h23, if_neg h72, if_neg h96]

theorem mps_name : containsSub ".000".toList "formationV1.mps".toList = false ∧
    containsSub ".mps".toList "formationV1.mps".toList = true := by decide +kernel

theorem names_prefix (r : Row) : Names r (filePrefix r) := by
  refine ⟨6 - (toString r.seqNum).toList.length, rfl, ?_⟩
  omega

theorem names_eq {r : Row} {s : Str} (h : Names r s) : s = filePrefix r := by
  obtain ⟨z, rfl, h⟩ := h
  unfold filePrefix six
  rw [show z = 6 - (toString r.seqNum).toList.length by omega]

/-- the row is generated -/
theorem row_file (env : Env P G) (dir : Str) (i : Nat) (r : Row) (name : Str) (p : P) :
    (row env dir i r = .ok (.file name p) ∧ env.save name p = none) ↔ Generates env dir i r name p := by
  unfold row
  constructor
  · rintro ⟨h, hs⟩
    split at h
    · rename_i hc
      rw [containsSub_iff] at hc
      split at h
      · cases h
      · cases h
      · rename_i q hq
        injection h with h; injection h with h1 h2; subst h1 h2
        exact .procedure _ _ (names_prefix r) hc ((maccor_some env i r _).mp hq) hs
    split at h
    · rename_i hc
      simp only [Bool.and_eq_true, beq_iff_eq] at hc
      split at h
      · cases h
      · rename_i q hq
        injection h with h; injection h with h1 h2; subst h1 h2
        exact .settings _ _ (names_prefix r) hc.2 hq hs
    split at h <;> cases h
  · intro h
    rcases h with ⟨_, stem, hst, hc, hp, hs⟩ | ⟨_, stem, hst, ht, hp, hs⟩ <;> rw [names_eq hst] at hs ⊢
    · refine ⟨?_, hs⟩
      have := (containsSub_iff _ _).mpr hc
      rw [if_pos this, (maccor_some env i r _).mpr hp]
    · refine ⟨?_, hs⟩
      rw [ht, if_neg (by rw [mps_name.1]; simp), if_pos (by rw [mps_name.2]; rfl), hp]

theorem row_fail (env : Env P G) (dir : Str) (i : Nat) (r : Row) :
    (∃ f, row env dir i r = .ok (.fail f)) ↔ Unsupported env i r := by
  unfold row Unsupported
  by_cases hc : containsSub ".000".toList r.template = true
  · have hc' := (containsSub_iff _ _).mp hc
    rw [if_pos hc, if_pos hc', ← maccor_none env i r]
    constructor
    · rintro ⟨f, h⟩
      split at h
      · cases h
      · assumption
      · cases h
    · intro h; rw [h]; exact ⟨_, rfl⟩
  · have hc' : ¬ ".000".toList <:+: r.template := fun h => hc ((containsSub_iff _ _).mpr h)
    rw [if_neg hc, if_neg hc']
    constructor
    · rintro ⟨f, h⟩ ht
      rw [ht, if_pos (by rw [mps_name.2]; rfl)] at h
      split at h <;> cases h
    · intro ht
      rw [if_neg (by simp only [Bool.and_eq_true, beq_iff_eq]; exact fun h => ht h.2)]
      split
      · exact ⟨_, rfl⟩
      · exact ⟨_, rfl⟩

/-- the entry a handled row leaves: the file it became, or nothing -/
def made (env : Env P G) (dir : Str) (i : Nat) (r : Row) : Option (Str × P) :=
  match row env dir i r with
  | .ok (.file name p) => some (name, p)
  | _ => none

theorem made_iff (env : Env P G) (dir : Str) (i : Nat) (r : Row) (hh : Handled env dir i r) (x : Str × P) :
    made env dir i r = some x ↔ Generates env dir i r x.1 x.2 := by
  rw [← row_file env dir i r]
  unfold made
  constructor
  · intro h
    split at h
    · rename_i name p hr
      injection h with h; subst h
      refine ⟨hr, ?_⟩
      rcases hh with ⟨n', p', hg⟩ | hu
      · have := (row_file env dir i r n' p').mpr hg
        rw [hr] at this
        have h1 := this.1
        injection h1 with h1; injection h1 with h1 h2; subst h1 h2
        exact this.2
      · obtain ⟨f, hf⟩ := (row_fail env dir i r).mpr hu
        rw [hr] at hf; cases hf
    · cases h
  · rintro ⟨h, _⟩; rw [h]

theorem made_none (env : Env P G) (dir : Str) (i : Nat) (r : Row) (hh : Handled env dir i r) :
    made env dir i r = none ↔ Unsupported env i r := by
  rw [← row_fail env dir i r]
  constructor
  · intro h
    rcases hh with ⟨n', p', hg⟩ | hu
    · rw [(made_iff env dir i r (Or.inl ⟨n', p', hg⟩) (n', p')).mpr hg] at h; cases h
    · exact (row_fail env dir i r).mpr hu
  · rintro ⟨f, h⟩; unfold made; rw [h]

/-- the loop over rows that can all be handled -/
theorem loop_handled (env : Env P G) (dir : Str) (i : Nat) (rows : List Row) (s : State P)
    (hh : ∀ (j : Nat) r, rows[j]? = some r → Handled env dir (i + j) r) :
    ∃ s', loop env dir i rows s = (s', none) ∧
      s'.written = s.written ++ (rows.zipIdx i).filterMap (fun x => made env dir x.2 x.1) ∧
      s'.generated = s.generated ++ ((rows.zipIdx i).filterMap (fun x => made env dir x.2 x.1)).map Prod.fst ∧
      s'.failures.length = s.failures.length +
        ((rows.zipIdx i).filter (fun x => (made env dir x.2 x.1).isNone)).length ∧
      (s'.clean = true ↔ s.clean = true ∧
        (rows.zipIdx i).filter (fun x => (made env dir x.2 x.1).isNone) = []) ∧
      s'.names.length = s.names.length + ((rows.zipIdx i).filterMap (fun x => made env dir x.2 x.1)).length := by
  induction rows generalizing i s with
  | nil => exact ⟨s, rfl, by simp, by simp, by simp, by simp, by simp⟩
  | cons r rs ih =>
    have h0 := hh 0 r (by simp)
    rw [Nat.add_zero] at h0
    have hrest : ∀ (j : Nat) r', rs[j]? = some r' → Handled env dir (i + 1 + j) r' := by
      intro j r' hj
      have := hh (j + 1) r' (by simpa using hj)
      rw [show i + 1 + j = i + (j + 1) by omega]; exact this
    simp only [loop]
    cases hm : made env dir i r with
    | none =>
      obtain ⟨f, hf⟩ := (row_fail env dir i r).mpr ((made_none env dir i r h0).mp hm)
      rw [hf]
      simp only
      obtain ⟨s', h1, h2, h3, h4, h5, h6⟩ := ih (i + 1) _ hrest
      refine ⟨s', h1, ?_, ?_, ?_, ?_, ?_⟩
      · simp [h2, hm]
      · simp [h3, hm]
      · simp [h4, hm]; omega
      · simp [h5, hm]
      · simp [h6, hm]
    | some x =>
      obtain ⟨hr, hs⟩ := (row_file env dir i r x.1 x.2).mpr ((made_iff env dir i r h0 x).mp hm)
      rw [hr]
      simp only [hs]
      obtain ⟨s', h1, h2, h3, h4, h5, h6⟩ := ih (i + 1) _ hrest
      refine ⟨s', h1, ?_, ?_, ?_, ?_, ?_⟩
      · simp [h2, hm]
      · simp [h3, hm]
      · simp [h4, hm]
      · simp [h5, hm]
      · simp [h6, hm]; omega

/-- the first row that cannot be handled ends everything -/
theorem loop_raises (env : Env P G) (dir : Str) (i : Nat) (rows : List Row) (s : State P) (k : Nat) (r : Row)
    (hk : rows[k]? = some r) (hb : ¬ Handled env dir (i + k) r) :
    ∃ s' e, loop env dir i rows s = (s', some e) ∧
      ∀ x ∈ s'.written, x ∈ s.written ∨
        ∃ j r', j < k ∧ rows[j]? = some r' ∧ made env dir (i + j) r' = some x := by
  induction rows generalizing i s k with
  | nil => simp at hk
  | cons r0 rs ih =>
    simp only [loop]
    cases hr : row env dir i r0 with
    | error e => exact ⟨s, e, rfl, fun x hx => Or.inl hx⟩
    | ok m =>
      cases m with
      | fail f =>
        cases k with
        | zero =>
          simp only [List.getElem?_cons_zero, Option.some.injEq] at hk
          subst hk
          exact absurd (Or.inr ((row_fail env dir i r0).mp ⟨f, hr⟩)) hb
        | succ k =>
          obtain ⟨s', e, h1, h2⟩ := ih (i + 1) { s with failures := s.failures ++ [f], clean := false } k
            (by simpa using hk) (by rw [show i + 1 + k = i + (k + 1) by omega]; exact hb)
          refine ⟨s', e, h1, ?_⟩
          intro x hx
          rcases h2 x hx with h | ⟨j, r', hj, hj2, hj3⟩
          · exact Or.inl h
          · exact Or.inr ⟨j + 1, r', by omega, by simpa using hj2,
              by rw [show i + (j + 1) = i + 1 + j by omega]; exact hj3⟩
      | file name p =>
        simp only
        cases hs : env.save name p with
        | some e => exact ⟨s, e, rfl, fun x hx => Or.inl hx⟩
        | none =>
          cases k with
          | zero =>
            simp only [List.getElem?_cons_zero, Option.some.injEq] at hk
            subst hk
            exact absurd (Or.inl ⟨name, p, (row_file env dir i r0 name p).mp ⟨hr, hs⟩⟩) hb
          | succ k =>
            obtain ⟨s', e, h1, h2⟩ := ih (i + 1)
              { s with generated := s.generated ++ [name], names := s.names ++ [filePrefix r0 ++ ['_']],
                       written := s.written ++ [(name, p)] } k
              (by simpa using hk) (by rw [show i + 1 + k = i + (k + 1) by omega]; exact hb)
            refine ⟨s', e, h1, ?_⟩
            intro x hx
            rcases h2 x hx with h | ⟨j, r', hj, hj2, hj3⟩
            · simp only [List.mem_append, List.mem_singleton] at h
              rcases h with h | h
              · exact Or.inl h
              · refine Or.inr ⟨0, r0, by omega, rfl, ?_⟩
                rw [Nat.add_zero]; unfold made; rw [hr, h]
            · exact Or.inr ⟨j + 1, r', by omega, by simpa using hj2,
                by rw [show i + (j + 1) = i + 1 + j by omega]; exact hj3⟩

end Beep.Proof.Generate
