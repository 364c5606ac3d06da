import Verif.Proof.JsonRound

/-!
# C165: an interrupted save is never mistaken for a complete one
-/

namespace Beep.Props.JsonText

open Beep.JsonText Beep.Spec.JsonText Beep.Proof.JsonText

/-! ## A dictionary to try the statements on -/

/-- `{"paths": {}, "é😀\n": [1e-05, NaN, null, -Infinity, true], "a": {"b": "\"", "c": -12.5}}` -/
def demo : J :=
  .obj [([112, 97, 116, 104, 115], .obj []),
    ([233, 128512, 10], .arr [.num "1e-05".toList, .nan, .null, .inf true, .bool true]),
    ([97], .obj [([98], .str [34]), ([99], .num "-12.5".toList)])]

theorem demo_proper : Proper demo := by
  have h1 : Numeral "1e-05".toList :=
    ⟨[], ['1'], [], "e-05".toList, by decide, .inl rfl, .inr (by simp [Digits]), .inl rfl,
      .inr ⟨'e', ['-'], ['0', '5'], by decide, .inl rfl, .inr (.inr rfl), by simp [Digits]⟩⟩
  have h2 : Numeral "-12.5".toList :=
    ⟨['-'], ['1', '2'], ['.', '5'], [], by decide, .inr rfl, .inr (by simp [Digits]),
      .inr ⟨['5'], rfl, by simp [Digits]⟩, .inl rfl⟩
  simp only [demo, Proper, ProperElems, ProperPairs]
  simp only [Unicode]
  refine ⟨by decide, trivial, by decide, ⟨h1, trivial, trivial, trivial, trivial, trivial⟩, by decide,
    ⟨by decide, by decide, by decide, h2, trivial⟩, trivial⟩

/-- The text is what `json.dumps` writes. -/
example : dumps demo =
    "{\"paths\": {}, \"\\u00e9\\ud83d\\ude00\\n\": [1e-05, NaN, null, -Infinity, true], \"a\": {\"b\": \"\\\"\", \"c\": -12.5}}".toList := by
  decide +kernel

/-! ## The theorems -/

/-- The bound in `loads` is never what makes reading fail: if the text can be read with any bound
at all, `loads` reads the same. -/
theorem C165_bound (n : Nat) (s : Text) (v : J) (h : loadsWith n s = some v) :
    loads s = some v := by
  unfold loads
  unfold loadsWith at h ⊢
  cases hv : value n (ws s) with
  | none => rw [hv] at h; simp at h
  | some x =>
    obtain ⟨v', r⟩ := x
    rw [hv] at h
    rw [value_bound hv (by have := ws_length s; omega)]
    exact h

/-- A complete save is read back as it was: every nesting of dictionaries, lists, strings, numbers,
NaN, … -/
theorem C165_roundtrip (j : J) (h : Proper j) (e : Text) (he : LineEnd e) :
    loads (dumps j ++ e) = some j := by
  have hf : Free e := by
    rcases he with rfl | rfl
    · exact .inl rfl
    · exact .inr (by simp [Stops, isDig])
  have hw : ws e = [] := by rcases he with rfl | rfl <;> rfl
  rw [loads, loadsWith, ws_dumps j h, value_dumps j h _ (by simp; omega) e (.inr hf)]
  simp [hw]

/-- What is read of the beginning of a saved dictionary is the whole dictionary, and then nothing
but a line feed is missing. -/
theorem truncated (j : J) (h : Proper j) (hd : IsDict j) (e : Text) (he : LineEnd e)
    (p q : Text) (hpq : p ++ q = dumps j ++ e) (v : J) (hv : loads p = some v) :
    v = j ∧ (q = [] ∨ p = dumps j) := by
  match j with
  | .obj l =>
    have hfull : value ((dumps (.obj l) ++ e).length + 1) (dumps (.obj l) ++ e) = some (.obj l, e) :=
      value_dumps _ h _ (by simp; omega) e (.inl trivial)
    obtain ⟨x, hx⟩ : ∃ x, dumps (.obj l) = '{' :: x := by
      match l with
      | [] => exact ⟨_, by rw [dumps]⟩
      | (k, v) :: l => exact ⟨_, by rw [dumps]⟩
    match p with
    | [] => simp [loads, loadsWith, ws, value] at hv
    | c :: p =>
      have hc : c = '{' := by
        rw [hx, List.cons_append, List.cons_append] at hpq
        injection hpq
      subst hc
      rw [loads, loadsWith, ws_cons (by decide)] at hv
      cases hval : value (('{' :: p).length + 1) ('{' :: p) with
      | none => rw [hval] at hv; simp at hv
      | some y =>
        obtain ⟨v', r⟩ := y
        simp only [hval] at hv
        split_ifs at hv with hr
        injection hv with hv
        subst hv
        have hnn : NotNum v' := by
          rw [value] at hval
          simp only [show ¬ ('{' = '"') by decide, if_false, if_true] at hval
          rw [object] at hval
          split at hval
          · simp at hval
          · split_ifs at hval
            · simp only [Option.some.injEq, Prod.mk.injEq] at hval
              obtain ⟨rfl, -⟩ := hval; trivial
            · simp only [Option.map_eq_some_iff, Prod.mk.injEq, Prod.exists] at hval
              obtain ⟨_, _, -, rfl, -⟩ := hval; trivial
        have := (value_append _ ((dumps (.obj l) ++ e).length + 1) _ _ _ hval (.inl hnn)).2
          (by have := congrArg List.length hpq; simp only [List.length_append] at this ⊢; omega) q
        rw [hpq, hfull] at this
        simp only [Option.some.injEq, Prod.mk.injEq] at this
        obtain ⟨rfl, he'⟩ := this
        refine ⟨rfl, ?_⟩
        rcases he with rfl | rfl
        · left
          exact (List.append_eq_nil_iff.mp he'.symm).2
        · match r, q with
          | [], q =>
            right
            rw [List.nil_append] at he'
            rw [← he'] at hpq
            exact List.append_cancel_right hpq
          | a :: r, q =>
            left
            rw [List.cons_append] at he'
            injection he' with _ he'
            exact (List.append_eq_nil_iff.mp he'.symm).2

/-- Wherever the text of a saved dictionary is cut off, reading what is left is an error. -/
theorem C165_truncated (j : J) (h : Proper j) (hd : IsDict j) (p q : Text) (hq : q ≠ [])
    (hpq : p ++ q = dumps j) : loads p = none := by
  cases hv : loads p with
  | none => rfl
  | some v =>
    obtain ⟨-, h' | h'⟩ := truncated j h hd [] (.inl rfl) p q (by simpa using hpq) v hv
    · exact absurd h' hq
    · rw [h'] at hpq
      have := congrArg List.length hpq
      simp at this
      exact absurd this hq

theorem crashed_succ (chunks : List Text) (k : Nat) (old : Option Text) :
    crashed (saveOps chunks) (k + 1) old = some (chunks.take k).flatten := by
  have : ∀ (l : List Text) (t : Text),
      (l.map Op.write).foldl (fun f o => o.run f) (some t) = some (t ++ l.flatten) := by
    intro l
    induction l with
    | nil => simp
    | cons c l ih =>
      intro t
      rw [List.map_cons, List.foldl_cons, List.flatten_cons, ← List.append_assoc]
      exact ih (t ++ c)
  simp only [crashed, saveOps, List.take_succ_cons, List.foldl_cons, ← List.map_take]
  exact this (chunks.take k) []

/-- Wherever the process dies while it saves a dictionary, in whatever pieces the text reaches the
file: loading the file afterwards gives what it gave before, or fails, or gives exactly the new
dictionary; and the new dictionary when all is written.

`_partial`: what was there before can be lost (`C165_lost_violated`). -/
theorem C165_crash_partial (j : J) (h : Proper j) (hd : IsDict j) (e : Text) (he : LineEnd e)
    (chunks : List Text) (hc : chunks.flatten = dumps j ++ e) (old : Option Text) :
    (∀ k, let after := crashed (saveOps chunks) k old
      after = old ∨ loadFile after = none ∨ loadFile after = some j) ∧
    (∀ k, chunks.length < k → loadFile (crashed (saveOps chunks) k old) = some j) := by
  constructor
  · intro k
    match k with
    | 0 => left; rfl
    | k + 1 =>
      right
      simp only [crashed_succ, loadFile, Option.bind_some]
      cases hv : loads (chunks.take k).flatten with
      | none => left; rfl
      | some v =>
        right
        have : (chunks.take k).flatten ++ (chunks.drop k).flatten = dumps j ++ e := by
          rw [← List.flatten_append, List.take_append_drop, hc]
        rw [(truncated j h hd e he _ _ this v hv).1]
  · intro k hk
    match k with
    | k + 1 =>
      rw [crashed_succ, List.take_of_length_le (by omega), hc, loadFile, Option.bind_some]
      exact C165_roundtrip j h e he

/-- The save is not all or nothing: whatever is saved, over whatever complete file, there is a
moment at which the process can die and leave neither the old contents nor the new. -/
theorem C165_lost_violated (chunks : List Text) (old : Text) (o : J) (_ : loads old = some o) :
    ∃ k, loadFile (crashed (saveOps chunks) k (some old)) = none :=
  ⟨1, by rw [crashed_succ]; rfl⟩

/-! ## The hypotheses can be met -/

example : Proper demo ∧ IsDict demo ∧ loads (dumps demo ++ ['\n']) = some demo :=
  ⟨demo_proper, trivial, C165_roundtrip demo demo_proper _ (.inr rfl)⟩

example : loads ((dumps demo).take 30) = none :=
  C165_truncated demo demo_proper trivial _ _ (by decide +kernel) (List.take_append_drop 30 _)

/-- A file that holds an older save and dies after two of three pieces. -/
example : loadFile (crashed (saveOps [(dumps demo).take 10, (dumps demo).drop 10, ['\n']]) 2
    (some (dumps (.obj [])))) = none := by
  decide +kernel

/-- Cutting off a number gives another number: that what is saved is a dictionary matters. -/
example : loads "12".toList = some (.num "12".toList) ∧ loads "1".toList = some (.num "1".toList) := by
  constructor <;> rfl

end Beep.Props.JsonText
