import Verif.Proof.Base
import Verif.Spec.Dash
/-
C57: the laws of the nested dictionary.
-/
namespace Beep.Props.Dash
open Beep Beep.Dash Beep.Spec.Dash

theorem find_cons (k : Str) (w : Val) (r : Obj) (x : Str) :
    (Obj.cons k w r).find x = if k = x then some w else r.find x := by
  cases w <;> rfl

theorem find_put (o : Obj) (k : Str) (w : Val) (x : Str) :
    (o.put k w).find x = if k = x then some w else o.find x := by
  induction o with
  | nil => rw [Obj.put, find_cons]
  | leaf k' v r ih =>
    rw [Obj.put]
    split
    · rename_i h; subst h; rw [find_cons]; simp only [Obj.find]; split <;> rfl
    · rename_i h
      simp only [Obj.find, ih]
      by_cases h1 : k' = x
      · subst h1; rw [if_pos rfl, if_neg (fun e => h e.symm), if_pos rfl]
      · rw [if_neg h1, if_neg h1]
  | node k' s r _ ih =>
    rw [Obj.put]
    split
    · rename_i h; subst h; rw [find_cons]; simp only [Obj.find]; split <;> rfl
    · rename_i h
      simp only [Obj.find, ih]
      by_cases h1 : k' = x
      · subst h1; rw [if_pos rfl, if_neg (fun e => h e.symm), if_pos rfl]
      · rw [if_neg h1, if_neg h1]

theorem find_none (o : Obj) (x : Str) : o.find x = none ↔ x ∉ o.keys := by
  induction o with
  | nil => simp [Obj.find, Obj.keys]
  | leaf k v r ih =>
    simp only [Obj.find, Obj.keys, List.mem_cons]
    by_cases h : k = x
    · subst h; simp
    · rw [if_neg h, ih]; constructor
      · rintro h1 (h2 | h2)
        · exact h h2.symm
        · exact h1 h2
      · exact fun h1 h2 => h1 (Or.inr h2)
  | node k v r _ ih =>
    simp only [Obj.find, Obj.keys, List.mem_cons]
    by_cases h : k = x
    · subst h; simp
    · rw [if_neg h, ih]; constructor
      · rintro h1 (h2 | h2)
        · exact h h2.symm
        · exact h1 h2
      · exact fun h1 h2 => h1 (Or.inr h2)

theorem find_del_ne (o : Obj) (k x : Str) (h : k ≠ x) : (o.del k).find x = o.find x := by
  induction o with
  | nil => rfl
  | leaf k' v r ih =>
    rw [Obj.del]
    split
    · rename_i h1; rw [Obj.find, if_neg (by rw [h1]; exact h)]
    · simp only [Obj.find, ih]
  | node k' s r _ ih =>
    rw [Obj.del]
    split
    · rename_i h1; rw [Obj.find, if_neg (by rw [h1]; exact h)]
    · simp only [Obj.find, ih]

theorem find_del_self (o : Obj) (k : Str) (h : Distinct o) : (o.del k).find k = none := by
  induction o with
  | nil => rfl
  | leaf k' v r ih =>
    rw [Obj.del]
    split
    · rename_i h1; rw [find_none, ← h1]; exact h.1
    · rename_i h1; rw [Obj.find, if_neg h1]; exact ih h.2
  | node k' s r _ ih =>
    rw [Obj.del]
    split
    · rename_i h1; rw [find_none, ← h1]; exact h.1
    · rename_i h1; rw [Obj.find, if_neg h1]; exact ih h.2.2

theorem distinct_sub (o : Obj) (k : Str) (s : Obj) (h : Distinct o) (hf : o.find k = some (.obj s)) : Distinct s := by
  induction o with
  | nil => cases hf
  | leaf k' v r ih =>
    rw [Obj.find] at hf
    split at hf
    · cases hf
    · exact ih h.2 hf
  | node k' s' r _ ih =>
    rw [Obj.find] at hf
    split at hf
    · cases hf; exact h.2.1
    · exact ih h.2.2 hf

/-- C57: a value just written is read back. -/
theorem C57_get_set (o o' : Obj) (p : List Str) (w : Val) (h : setP o p w = .ok o') : getP o' p = some w := by
  induction p generalizing o o' with
  | nil => cases h
  | cons k p ih =>
    cases p with
    | nil => cases h; rw [getP, find_put, if_pos rfl]
    | cons k' p =>
      rw [setP] at h
      rw [getP]
      simp only [bind, Except.bind] at h
      split at h
      · cases h
      · split at h
        · cases h
        · rename_i s' hs'
          cases h
          rw [find_put, if_pos rfl]
          exact ih _ _ hs'
      · split at h
        · cases h
        · rename_i s' hs'
          cases h
          rw [find_put, if_pos rfl]
          exact ih _ _ hs'

theorem getP_nil (p : List Str) : getP .nil p = none := by
  match p with
  | [] => rfl
  | [k] => rfl
  | k :: k' :: p => rfl

/-- C57: writing changes nothing at paths that do not lead through the written one. -/
theorem C57_set_other (o o' : Obj) (p q : List Str) (w : Val) (h : setP o p w = .ok o') (ha : Apart p q) :
    getP o' q = getP o q := by
  induction p generalizing o o' q with
  | nil => exact absurd (List.nil_prefix) ha.1
  | cons k p ih =>
    cases q with
    | nil => exact absurd (List.nil_prefix) ha.2
    | cons x q =>
      by_cases hx : k = x
      · subst hx
        have ha' : Apart p q := by
          refine ⟨fun hh => ha.1 ?_, fun hh => ha.2 ?_⟩
          · exact List.cons_prefix_cons.mpr ⟨rfl, hh⟩
          · exact List.cons_prefix_cons.mpr ⟨rfl, hh⟩
        cases p with
        | nil => exact absurd (List.nil_prefix) ha'.1
        | cons k' p =>
          cases q with
          | nil => exact absurd (List.nil_prefix) ha'.2
          | cons x' q =>
            rw [setP] at h
            simp only [bind, Except.bind] at h
            rw [getP, getP]
            split at h
            · cases h
            · rename_i s hs
              split at h
              · cases h
              · rename_i s' hs'
                cases h
                rw [find_put, if_pos rfl, hs]
                exact ih _ _ _ hs' ha'
            · rename_i hs
              split at h
              · cases h
              · rename_i s' hs'
                cases h
                rw [find_put, if_pos rfl, hs]
                simp only
                rw [ih _ _ _ hs' ha', getP_nil]
      · have hf : o'.find x = o.find x := by
          cases p with
          | nil => cases h; rw [find_put, if_neg hx]
          | cons k' p =>
            rw [setP] at h
            simp only [bind, Except.bind] at h
            split at h
            · cases h
            · split at h
              · cases h
              · cases h; rw [find_put, if_neg hx]
            · split at h
              · cases h
              · cases h; rw [find_put, if_neg hx]
        cases q with
        | nil => rw [getP, getP, hf]
        | cons x' q => rw [getP, getP, hf]

/-- C57: writing fails exactly when the path is empty or leads through a text. -/
theorem C57_set_fails (o : Obj) (p : List Str) (w : Val) (hp : p ≠ []) :
    (∃ e, setP o p w = .error e) ↔ Blocked o p := by
  induction p generalizing o with
  | nil => exact absurd rfl hp
  | cons k p ih =>
    cases p with
    | nil =>
      constructor
      · rintro ⟨e, he⟩; cases he
      · rintro ⟨q, s, hq, hne, hg⟩
        cases q with
        | nil => cases hg
        | cons x q =>
          rw [List.cons_prefix_cons] at hq
          obtain ⟨rfl, hq⟩ := hq
          rw [List.prefix_nil.mp hq] at hne
          exact absurd rfl hne
    | cons k' p =>
      have hb : ∀ s, (∀ q, q ≠ [] → getP o (k :: q) = getP s q) → (∀ t, o.find k ≠ some (.str t)) →
          (Blocked o (k :: k' :: p) ↔ Blocked s (k' :: p)) := by
        intro s hs ht
        constructor
        · rintro ⟨q, t, hq, hne, hg⟩
          cases q with
          | nil => cases hg
          | cons x q =>
            rw [List.cons_prefix_cons] at hq
            obtain ⟨rfl, hq⟩ := hq
            cases q with
            | nil => exact absurd hg (ht t)
            | cons x' q =>
              exact ⟨x' :: q, t, hq, fun e => hne (by rw [e]), by rw [← hs _ (by simp)]; exact hg⟩
        · rintro ⟨q, t, hq, hne, hg⟩
          refine ⟨k :: q, t, List.cons_prefix_cons.mpr ⟨rfl, hq⟩, ?_, ?_⟩
          · intro e; exact hne (List.cons.inj e).2
          · cases q with
            | nil => cases hg
            | cons x q => rw [hs _ (by simp)]; exact hg
      rw [setP]
      cases hf : o.find k with
      | none =>
        simp only
        have h0 : ∀ q, q ≠ [] → getP o (k :: q) = getP .nil q := by
          intro q hq
          cases q with
          | nil => exact absurd rfl hq
          | cons x q => rw [getP, hf, getP_nil]
        rw [hb .nil h0 (by intro t; rw [hf]; simp), ← ih .nil (by simp)]
        simp only [bind, Except.bind]
        constructor
        · rintro ⟨e, he⟩
          split at he
          · rename_i e' h'; exact ⟨e', h'⟩
          · cases he
        · rintro ⟨e, he⟩
          rw [he]; exact ⟨e, rfl⟩
      | some v =>
        cases v with
        | str t =>
          simp only
          constructor
          · intro _
            exact ⟨[k], t, List.cons_prefix_cons.mpr ⟨rfl, List.nil_prefix⟩, by simp, hf⟩
          · intro _; exact ⟨_, rfl⟩
        | obj s =>
          simp only
          have h0 : ∀ q, q ≠ [] → getP o (k :: q) = getP s q := by
            intro q hq
            cases q with
            | nil => exact absurd rfl hq
            | cons x q => rw [getP, hf]
          rw [hb s h0 (by intro t; rw [hf]; simp), ← ih s (by simp)]
          simp only [bind, Except.bind]
          constructor
          · rintro ⟨e, he⟩
            split at he
            · rename_i e' h'; exact ⟨e', h'⟩
            · cases he
          · rintro ⟨e, he⟩
            rw [he]; exact ⟨e, rfl⟩

/-- C57: after `unset` the path is gone, with everything below it. -/
theorem C57_unset (o : Obj) (p q : List Str) (hp : p ≠ []) (hd : Distinct o) : getP (unsetP o p) (p ++ q) = none := by
  induction p generalizing o with
  | nil => exact absurd rfl hp
  | cons k p ih =>
    cases p with
    | nil =>
      rw [unsetP]
      cases q with
      | nil => exact find_del_self o k hd
      | cons x q => rw [List.cons_append, List.nil_append, getP, find_del_self o k hd]
    | cons k' p =>
      rw [unsetP, List.cons_append, List.cons_append, getP]
      cases hf : o.find k with
      | none => simp only [hf]
      | some v =>
        cases v with
        | str t => simp only [hf]
        | obj s =>
          simp only [find_put, if_pos]
          exact ih s (by simp) (distinct_sub o k s hd hf)

/-- C57: `unset` changes nothing at the other paths. -/
theorem C57_unset_other (o : Obj) (p q : List Str) (ha : Apart p q) : getP (unsetP o p) q = getP o q := by
  induction p generalizing o q with
  | nil => exact absurd (List.nil_prefix) ha.1
  | cons k p ih =>
    cases q with
    | nil => exact absurd (List.nil_prefix) ha.2
    | cons x q =>
      by_cases hx : k = x
      · subst hx
        have ha' : Apart p q := by
          refine ⟨fun hh => ha.1 ?_, fun hh => ha.2 ?_⟩
          · exact List.cons_prefix_cons.mpr ⟨rfl, hh⟩
          · exact List.cons_prefix_cons.mpr ⟨rfl, hh⟩
        cases p with
        | nil => exact absurd (List.nil_prefix) ha'.1
        | cons k' p =>
          cases q with
          | nil => exact absurd (List.nil_prefix) ha'.2
          | cons x' q =>
            rw [unsetP, getP, getP]
            cases hf : o.find k with
            | none => simp only [hf]
            | some v =>
              cases v with
              | str t => simp only [hf]
              | obj s =>
                simp only [find_put, if_pos]
                exact ih s _ ha'
      · have hf : (unsetP o (k :: p)).find x = o.find x := by
          cases p with
          | nil => exact find_del_ne o k x hx
          | cons k' p =>
            rw [unsetP]
            split
            · rw [find_put, if_neg hx]
            · rfl
        cases q with
        | nil => rw [getP, getP, hf]
        | cons x' q => rw [getP, getP, hf]

/-- C57: `unset` keeps the dictionary on the way to the removed path. -/
theorem C57_unset_parent (o : Obj) (p : List Str) (k : Str) (s : Obj) (h : getP o p = some (.obj s)) :
    getP (unsetP o (p ++ [k])) p = some (.obj (s.del k)) := by
  induction p generalizing o with
  | nil => cases h
  | cons x p ih =>
    cases p with
    | nil =>
      rw [getP] at h
      rw [List.cons_append, List.nil_append, unsetP, h]
      simp only
      rw [getP, find_put, if_pos rfl, unsetP]
    | cons x' p =>
      rw [getP] at h
      rw [List.cons_append, List.cons_append, unsetP]
      cases hf : o.find x with
      | none => rw [hf] at h; cases h
      | some v =>
        cases v with
        | str t => rw [hf] at h; cases h
        | obj s' =>
          rw [hf] at h
          simp only at h ⊢
          rw [getP, find_put, if_pos rfl]
          exact ih s' h

/-- distinct keys stay distinct -/
theorem keys_put (o : Obj) (k : Str) (w : Val) : (o.put k w).keys = if k ∈ o.keys then o.keys else o.keys ++ [k] := by
  have hc : ∀ (r : Obj), (Obj.cons k w r).keys = k :: r.keys := by intro r; cases w <;> rfl
  induction o with
  | nil => rw [Obj.put, hc]; simp [Obj.keys]
  | leaf k' v r ih =>
    rw [Obj.put]
    split
    · rename_i h; rw [hc]; subst h; simp [Obj.keys]
    · rename_i h
      simp only [Obj.keys, ih, List.mem_cons]
      by_cases h1 : k ∈ r.keys
      · rw [if_pos h1, if_pos (Or.inr h1)]
      · rw [if_neg h1, if_neg (by rintro (e | e); exacts [h e.symm, h1 e])]; rfl
  | node k' s r _ ih =>
    rw [Obj.put]
    split
    · rename_i h; rw [hc]; subst h; simp [Obj.keys]
    · rename_i h
      simp only [Obj.keys, ih, List.mem_cons]
      by_cases h1 : k ∈ r.keys
      · rw [if_pos h1, if_pos (Or.inr h1)]
      · rw [if_neg h1, if_neg (by rintro (e | e); exacts [h e.symm, h1 e])]; rfl

/-- a nested dictionary and paths to which the theorems apply -/
def sample : Obj :=
  .node ['a'] (.leaf ['b'] ['1'] (.node ['c'] (.leaf ['d'] ['2'] .nil) .nil)) (.leaf ['e'] ['3'] .nil)

example : ∃ o', setP sample [['a'], ['c'], ['x'], ['y']] (.str ['4']) = .ok o' ∧
    Apart [['a'], ['c'], ['x'], ['y']] [['a'], ['c'], ['d']] ∧ Distinct sample ∧
    Blocked sample [['e'], ['f']] ∧ getP sample [['a'], ['c'], ['d']] = some (.str ['2']) := by
  refine ⟨_, rfl, ?_, ?_, ⟨[['e']], ['3'], ?_, ?_, rfl⟩, rfl⟩
  · exact ⟨by decide, by decide⟩
  · simp [sample, Distinct, Obj.keys]
  · exact ⟨[['f']], rfl⟩
  · decide

end Beep.Props.Dash
