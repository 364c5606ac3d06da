import Verif.Props.Parsers
/-
C161: splicing more than two Maccor files.
-/
namespace Beep.Props.SpliceMany
open Beep Beep.Parsers Beep.Spec.Parsers

/-- a row with its counters moved -/
def moved {α : Type} (by_ : Col → Rat) (r : Row α) : Row α := { r with counter := fun c => r.counter c + by_ c }

theorem splice_eq {α : Type} (d₁ d₂ : List (Row α)) (last first : Row α) (hl : d₁.getLast? = some last)
    (hf : d₂.head? = some first) :
    splice d₁ d₂ = .ok (d₁ ++ d₂.map (moved (shift last first))) := by
  unfold splice columnIncrement
  simp only [hf, hl, bind, Except.bind]
  rfl

/-- C161: files spliced one after the other keep all rows in their order, the first file as it is, and counters that never
decrease. -/
theorem C161_many {α : Type} (ds : List (List (Row α))) : ∀ (d out : List (Row α)), GoodFile d → (∀ e ∈ ds, GoodFile e) →
    ds.foldlM splice d = .ok out →
    GoodFile out ∧ d <+: out ∧ out.map Row.rest = ((d :: ds).flatten).map Row.rest := by
  induction ds with
  | nil =>
    intro d out hd _ h
    cases h
    exact ⟨hd, List.prefix_refl _, by simp⟩
  | cons e es ih =>
    intro d out hd hes h
    rw [List.foldlM_cons] at h
    simp only [bind, Except.bind] at h
    split at h
    · cases h
    rename_i m hm
    obtain ⟨e', mv, h1, h2, h3⟩ := Props.Parsers.C41_rows d e m hm
    have hne := (Props.Parsers.C41_accepts d e).mp ⟨m, hm⟩
    have hgood : GoodFile m := by
      intro c
      refine ⟨Props.Parsers.C41_monotone d e m hd (hes e (List.mem_cons_self ..)) hm c, ?_⟩
      obtain ⟨last, hl⟩ : ∃ l, d.getLast? = some l := ⟨_, List.getLast?_eq_some_getLast hne.1⟩
      obtain ⟨first, hf⟩ : ∃ f, e.head? = some f := by
        cases e with
        | nil => exact absurd rfl hne.2
        | cons f t => exact ⟨f, rfl⟩
      rw [splice_eq d e last first hl hf] at hm
      cases hm
      intro r hr
      rcases List.mem_append.mp hr with hr | hr
      · exact (hd c).2 r hr
      · obtain ⟨q, hq, rfl⟩ := List.mem_map.mp hr
        have hq0 := (hes e (List.mem_cons_self ..) c).2 q hq
        have hl0 := (hd c).2 last (List.mem_of_getLast? hl)
        unfold moved shift
        simp only
        split <;> linarith
    obtain ⟨a, b, c⟩ := ih m out hgood (fun x hx => hes x (List.mem_cons_of_mem _ hx)) h
    refine ⟨a, ?_, ?_⟩
    · refine List.IsPrefix.trans ?_ b
      rw [h1]
      exact List.prefix_append _ _
    · rw [c, List.flatten_cons, List.map_append, h1, List.map_append, h2]
      simp

/-- C161: three files with rows; splicing the first two first, or the last two first, gives the same exactly if every
counter that restarts in the second file also restarts in the third. (A counter that is zero throughout the second file
need only be below the last value of the first.) -/
theorem C161_grouping_partial {α : Type} (d₁ d₂ d₃ : List (Row α)) (l₁ f₂ l₂ f₃ : Row α) (h1 : GoodFile d₁) (h2 : GoodFile d₂)
    (e1 : d₁.getLast? = some l₁) (e2 : d₂.head? = some f₂) (e3 : d₂.getLast? = some l₂) (e4 : d₃.head? = some f₃) :
    ((splice d₁ d₂).bind (splice · d₃) = (splice d₂ d₃).bind (splice d₁)) ↔
      ∀ c, f₂.counter c < l₁.counter c →
        f₃.counter c < l₂.counter c ∨ (l₂.counter c = 0 ∧ f₃.counter c < l₁.counter c) := by
  have hl : splice (d₁ ++ d₂.map (moved (shift l₁ f₂))) d₃ =
      .ok (d₁ ++ d₂.map (moved (shift l₁ f₂)) ++
        d₃.map (moved (shift (moved (shift l₁ f₂) l₂) f₃))) := by
    refine splice_eq _ _ _ _ ?_ e4
    have hne : d₂ ≠ [] := by rintro rfl; cases e2
    rw [List.getLast?_append, List.getLast?_map, e3]
    rfl
  have hr : splice d₁ (d₂ ++ d₃.map (moved (shift l₂ f₃))) =
      .ok (d₁ ++ (d₂ ++ d₃.map (moved (shift l₂ f₃))).map
        (moved (shift l₁ f₂))) := by
    refine splice_eq _ _ _ _ e1 ?_
    rw [List.head?_append, e2]
    rfl
  rw [splice_eq d₁ d₂ l₁ f₂ e1 e2, splice_eq d₂ d₃ l₂ f₃ e3 e4]
  show splice _ d₃ = splice d₁ _ ↔ _
  rw [hl, hr, List.map_append, List.map_map, Except.ok.injEq, List.append_assoc, List.append_cancel_left_eq,
    List.append_cancel_left_eq]
  have key : ∀ c, (shift (moved (shift l₁ f₂) l₂) f₃ c =
      shift l₂ f₃ c + shift l₁ f₂ c) ↔ (f₂.counter c < l₁.counter c →
        f₃.counter c < l₂.counter c ∨ (l₂.counter c = 0 ∧ f₃.counter c < l₁.counter c)) := by
    intro c
    have p1 := (h1 c).2 l₁ (List.mem_of_getLast? e1)
    have p2 := (h2 c).2 f₂ (List.mem_of_head? e2)
    have p3 := (h2 c).2 l₂ (List.mem_of_getLast? e3)
    unfold shift moved
    simp only
    by_cases a : f₂.counter c < l₁.counter c
    · simp only [a, if_true, true_implies]
      by_cases b : f₃.counter c < l₂.counter c
      · rw [if_pos b, if_pos (by linarith)]
        simp [b]
      · rw [if_neg b]
        by_cases d : f₃.counter c < l₂.counter c + l₁.counter c
        · rw [if_pos d]
          constructor
          · intro h
            exact Or.inr ⟨by linarith, by linarith⟩
          · rintro (h | ⟨h, -⟩)
            · exact absurd h b
            · rw [h]
        · rw [if_neg d]
          constructor
          · intro h
            exfalso; linarith
          · rintro (h | ⟨h, h'⟩)
            · exact absurd h b
            · exfalso; rw [h] at d; exact d (by linarith)
    · simp only [a, if_false, false_implies, add_zero]
  clear hl hr
  generalize shift (moved (shift l₁ f₂) l₂) f₃ = sh at key ⊢
  constructor
  · intro h c
    refine (key c).mp ?_
    have h0 : ∀ i : Nat, _ := fun i => congrArg (fun l => l[i]?) h
    have := h0 0
    cases d₃ with
    | nil => cases e4
    | cons r rs =>
      cases e4
      simp only [List.map_cons, List.getElem?_cons_zero, Option.some.injEq, Function.comp, moved, Row.mk.injEq, and_true] at this
      have := congrFun this c
      linarith
  · intro h
    apply List.map_congr_left
    intro r _
    simp only [Function.comp, moved, Row.mk.injEq, and_true]
    funext c
    have := (key c).mpr (h c)
    rw [this]
    ring

/-- C161 fails: when the third file goes on where the second one, which started anew, had stopped, splicing the first two
first puts the third too late or too early: the counter does not grow by what it grew from the second file to the third. -/
theorem C161_gap_violated {α : Type} (d₁ d₂ d₃ m out : List (Row α)) (l₁ f₂ l₂ f₃ g h : Row α) (c : Col)
    (e1 : d₁.getLast? = some l₁) (e2 : d₂.head? = some f₂) (e3 : d₂.getLast? = some l₂) (e4 : d₃.head? = some f₃)
    (hm : splice d₁ d₂ = .ok m) (ho : splice m d₃ = .ok out) (hre : f₂.counter c < l₁.counter c) (h0 : 0 ≤ f₂.counter c)
    (hgo : l₂.counter c ≤ f₃.counter c) (hpos : 0 < l₂.counter c)
    (hg : out[d₁.length + d₂.length - 1]? = some g) (hh : out[d₁.length + d₂.length]? = some h) :
    h.counter c - g.counter c ≠ f₃.counter c - l₂.counter c := by
  rw [splice_eq d₁ d₂ l₁ f₂ e1 e2] at hm
  cases hm
  have hlast : (d₁ ++ d₂.map (moved (shift l₁ f₂))).getLast? =
      some (moved (shift l₁ f₂) l₂) := by
    rw [List.getLast?_append, List.getLast?_map, e3]
    rfl
  rw [splice_eq _ d₃ _ f₃ hlast e4] at ho
  cases ho
  have hlen : (d₁ ++ d₂.map (moved (shift l₁ f₂))).length =
      d₁.length + d₂.length := by simp
  have hd2 : 0 < d₂.length := by cases d₂ with
    | nil => cases e2
    | cons => simp
  rw [List.getElem?_append_right (by omega), hlen, Nat.sub_self, ← List.head?_eq_getElem?, List.head?_map, e4] at hh
  rw [List.getElem?_append_left (by omega), ← hlen, ← List.getLast?_eq_getElem?, hlast] at hg
  cases hh
  cases hg
  unfold moved shift
  simp only
  rw [if_pos hre]
  split <;> intro hc <;> linarith

private def at_ (i : Rat) : Row Unit := ⟨fun _ => i, ()⟩

/-- three files, the second starts anew and the third goes on -/
example : (splice [at_ 3, at_ 5] [at_ 0, at_ 2] >>= (splice · [at_ 3, at_ 4])).toOption.map (·.map (fun r => r.counter .test)) =
      some [3, 5, 5, 7, 10, 11] ∧
    (splice [at_ 0, at_ 2] [at_ 3, at_ 4] >>= splice [at_ 3, at_ 5]).toOption.map (·.map (fun r => r.counter .test)) =
      some [3, 5, 5, 7, 8, 9] := by decide +kernel

/-- three files that each start anew -/
example : (splice [at_ 3, at_ 5] [at_ 0, at_ 2] >>= (splice · [at_ 1, at_ 4])).toOption.map (·.map (fun r => r.counter .test)) =
    (splice [at_ 0, at_ 2] [at_ 1, at_ 4] >>= splice [at_ 3, at_ 5]).toOption.map (·.map (fun r => r.counter .test)) := by
  decide +kernel

/-- many files -/
example : ([[at_ 0, at_ 2], [at_ 1], [at_ 0, at_ 9]].foldlM splice [at_ 3, at_ 5]).toOption.map (·.map (fun r => r.counter .test)) =
    some [3, 5, 5, 7, 8, 8, 17] := by decide +kernel

end Beep.Props.SpliceMany
