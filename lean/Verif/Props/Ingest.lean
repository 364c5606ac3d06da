import Verif.Proof.Ingest
import Mathlib.Data.List.Forall2
/-
C94 parameter lookup, C95 Maccor headers, C96 Maccor time stamps, C97 Indigo columns.
-/
namespace Beep.Props.Ingest
open Beep Text Beep.Ingest Beep.Spec.Ingest Beep.Proof.Ingest

/-! ### C94 -/

theorem glob_single {C : Type} (project : Str) (pre post : List (Str × C)) (f : Str × C)
    (hf : project <+: f.1) (hh : f.1.head? ≠ some '.') (ho : ∀ g ∈ pre ++ post, ¬ project <+: g.1) :
    globPrefix project (pre ++ f :: post) = [f] := by
  have none_ : ∀ l : List (Str × C), (∀ g ∈ l, ¬ project <+: g.1) →
      l.filter (fun f => project.isPrefixOf f.1 && !(f.1.head? == some '.')) = [] := by
    intro l hl
    rw [List.filter_eq_nil_iff]
    intro g hg h
    simp only [Bool.and_eq_true] at h
    exact hl g hg (List.isPrefixOf_iff_prefix.1 h.1)
  rw [globPrefix, List.filter_append, List.filter_cons,
    none_ pre (fun g hg => ho g (by simp [hg])), none_ post (fun g hg => ho g (by simp [hg]))]
  have : (project.isPrefixOf f.1 && !(f.1.head? == some '.')) = true := by
    rw [Bool.and_eq_true, List.isPrefixOf_iff_prefix]
    exact ⟨hf, by simpa using hh⟩
  simp [this]

theorem lookup_single {R : Type} (num : R → Int) (path project : Str) (n : Nat) (h : RunFile path project n)
    (dir : List (Str × List R)) (f : Str × List R) (hg : globPrefix project dir = [f]) :
    lookup num dir path = .ok (if (f.2.filter (fun r => num r = (n : Int))).isEmpty then none
      else some (f.2.filter (fun r => num r = (n : Int)), f.2)) := by
  obtain ⟨ds, rest, e, hw⟩ := projectSequence_run path project n h
  rw [lookup, e]
  simp only [hg, parseInt_written ds n hw]
  split <;> rfl

theorem protocol_single (path project : Str) (n : Nat) (h : RunFile path project n) (dir : List (Str × List PRow))
    (f : Str × List PRow) (hg : globPrefix project dir = [f]) :
    protocolParameters dir path =
      .ok (if (f.2.filter (fun r => r.seq = (n : Int))).isEmpty then none else some (f.2.filter (fun r => r.seq = (n : Int)), f.2)) :=
  lookup_single PRow.seq path project n h dir f hg

theorem belongs_head (file project : Str) (h : BelongsTo file project) (h0 : '.' ∉ project) : file.head? ≠ some '.' := by
  obtain ⟨_, rest, rfl⟩ := h
  cases project with
  | nil => simp
  | cons c cs =>
    simp only [List.cons_append, List.head?_cons, ne_eq, Option.some.injEq]
    rintro rfl
    simp at h0

/-- C94: if the directory has one file that begins with the name of the project, and it belongs to the
project, a run gets exactly the rows of this file with its sequence number, and nothing if there are
none -/
theorem C94_own_partial (path project : Str) (n : Nat) (h : RunFile path project n)
    (pre post : List (Str × List PRow)) (f : Str × List PRow) (hf : BelongsTo f.1 project)
    (ho : ∀ g ∈ pre ++ post, ¬ project <+: g.1) :
    ((∀ r ∈ f.2, r.seq ≠ n) → protocolParameters (pre ++ f :: post) path = .ok none) ∧
    ((∃ r ∈ f.2, r.seq = n) → ∃ rows, protocolParameters (pre ++ f :: post) path = .ok (some (rows, f.2)) ∧
      List.Sublist rows f.2 ∧ ∀ r, r ∈ rows ↔ r ∈ f.2 ∧ r.seq = n) := by
  have hdot : '.' ∉ project := by obtain ⟨_, _, _, _, _, _, _, _, _, _, h⟩ := h; exact h
  have hp : project <+: f.1 := by obtain ⟨_, rest, e⟩ := hf; exact ⟨_, e.symm⟩
  have e := protocol_single path project n h (pre ++ f :: post) f
    (glob_single project pre post f hp (belongs_head _ _ hf hdot) ho)
  constructor
  · intro hn
    rw [e, if_pos]
    rw [List.isEmpty_iff, List.filter_eq_nil_iff]
    intro r hr
    simpa using hn r hr
  · rintro ⟨r, hr, hrn⟩
    refine ⟨_, by rw [e, if_neg]; simp only [List.isEmpty_iff, List.filter_eq_nil_iff]; intro hx; exact hx r hr (by simpa using hrn), List.filter_sublist, fun r => by simp⟩

/-- C94: a project without a file gets no parameters if no other project's name begins with its own -/
theorem C94_none_partial (path project : Str) (n : Nat) (h : RunFile path project n)
    (dir : List (Str × List PRow)) (ho : ∀ g ∈ dir, ¬ project <+: g.1) : protocolParameters dir path = .ok none := by
  obtain ⟨ds, rest, e, _⟩ := projectSequence_run path project n h
  have hg : globPrefix project dir = [] := by
    rw [globPrefix, List.filter_eq_nil_iff]
    intro g hg hh
    simp only [Bool.and_eq_true] at hh
    exact ho g hg (List.isPrefixOf_iff_prefix.1 hh.1)
  rw [protocolParameters, lookup, e]
  simp only [hg]

/-- C94 fails: a run of a project without a parameter file gets the parameters of another project, the
only one whose name begins with its own -/
theorem C94_other_violated (path project x : Str) (n : Nat) (h : RunFile path project n)
    (hx : '.' ∉ x) (pre post : List (Str × List PRow)) (f : Str × List PRow)
    (hf : BelongsTo f.1 (project ++ x)) (ho : ∀ g ∈ pre ++ post, ¬ project <+: g.1)
    (hr : ∃ r ∈ f.2, r.seq = n) :
    ∃ rows, rows ≠ [] ∧ rows ⊆ f.2 ∧ protocolParameters (pre ++ f :: post) path = .ok (some (rows, f.2)) := by
  have hdot : '.' ∉ project := by obtain ⟨_, _, _, _, _, _, _, _, _, _, h⟩ := h; exact h
  have hp : project <+: f.1 := by
    obtain ⟨_, rest, e⟩ := hf
    exact ⟨x ++ '_' :: rest, by rw [e]; simp⟩
  have e := protocol_single path project n h (pre ++ f :: post) f
    (glob_single project pre post f hp (belongs_head _ _ hf (by simp [hdot, hx])) ho)
  obtain ⟨r, hr, hrn⟩ := hr
  have hne : f.2.filter (fun r => r.seq = (n : Int)) ≠ [] := by
    intro h0
    rw [List.filter_eq_nil_iff] at h0
    exact h0 r hr (by simpa using hrn)
  refine ⟨_, hne, List.filter_sublist.subset, ?_⟩
  rw [e, if_neg (by simpa [List.isEmpty_iff] using hne)]

/-- C94 fails: a run of a project with a parameter file gets an `AssertionError` as soon as there is a
file of another project whose name begins with its own -/
theorem C94_ambiguous_violated (path project x : Str) (n : Nat) (h : RunFile path project n)
    (hx : '.' ∉ x) (dir : List (Str × List PRow)) (f g : Str × List PRow) (hf : f ∈ dir) (hg : g ∈ dir)
    (hfb : BelongsTo f.1 project) (hgb : BelongsTo g.1 (project ++ x)) (hne : f ≠ g) :
    protocolParameters dir path = .error .assertionError := by
  have hdot : '.' ∉ project := by obtain ⟨_, _, _, _, _, _, _, _, _, _, h⟩ := h; exact h
  obtain ⟨ds, rest, e, _⟩ := projectSequence_run path project n h
  have mem : ∀ k : Str × List PRow, k ∈ dir → ∀ y, '.' ∉ y → BelongsTo k.1 (project ++ y) → k ∈ globPrefix project dir := by
    intro k hk y hy hb
    rw [globPrefix, List.mem_filter, Bool.and_eq_true, List.isPrefixOf_iff_prefix]
    refine ⟨hk, ?_, by simpa using belongs_head _ _ hb (by simp [hdot, hy])⟩
    obtain ⟨_, r, e⟩ := hb
    exact ⟨y ++ '_' :: r, by rw [e]; simp⟩
  have h1 := mem f hf [] (by simp) (by simpa using hfb)
  have h2 := mem g hg x hx hgb
  rw [protocolParameters, lookup, e]
  simp only
  rcases hl : globPrefix project dir with _ | ⟨a, _ | ⟨b, l⟩⟩
  · rw [hl] at h1; simp at h1
  · rw [hl] at h1 h2
    simp only [List.mem_singleton] at h1 h2
    exact absurd (h1.trans h2.symm) hne
  · rfl

/-- run 287 of PreDiag -/
theorem run_predig : RunFile "data/PreDiag_000287_000128.092".toList "PreDiag".toList 287 :=
  ⟨"data/".toList, "000287".toList, "_000128.092".toList, by decide, .inr ⟨"data".toList, by decide⟩,
    ⟨by decide, by decide, by decide⟩, .inr ⟨"000128.092".toList, .inl (by decide)⟩, by decide, by decide, by decide, by decide⟩

example : ∃ f : Str × List PRow, BelongsTo f.1 "PreDiag".toList ∧
    protocolParameters [("Form_parameters.csv".toList, []), f] "data/PreDiag_000287_000128.092".toList =
      .ok (some ([⟨287, [("charge_constant_current_1", 2)]⟩], f.2)) :=
  ⟨("PreDiag_parameters.csv".toList, [⟨286, []⟩, ⟨287, [("charge_constant_current_1", 2)]⟩]),
    ⟨by decide, "parameters.csv".toList, by decide⟩, by decide +kernel⟩

example : ∃ f : Str × List PRow, BelongsTo f.1 ("PreDiag".toList ++ "2".toList) ∧
    protocolParameters [f] "data/PreDiag_000287_000128.092".toList = .ok (some ([⟨287, []⟩], f.2)) :=
  ⟨("PreDiag2_parameters.csv".toList, [⟨287, []⟩]), ⟨by decide, "parameters.csv".toList, by decide⟩, by decide +kernel⟩

/-! ### C95 -/

theorem once_of_suffix (f x t : Str) (h : Once f (x ++ t)) (hi : f <:+: t) : Once f t := by
  obtain ⟨a, b, e, hu⟩ := h
  obtain ⟨p, q, rfl⟩ := hi
  have h1 := hu (x ++ p) q (by simp)
  refine ⟨p, q, rfl, fun a' b' e' => ?_⟩
  have h2 := hu (x ++ a') b' (by rw [e']; simp)
  exact List.append_cancel_left (h2.trans h1.symm)

theorem unpack2_of_once (f x t : Str) (hne : f ≠ []) (h : Once f (x ++ (f ++ t))) :
    unpack2 f (x ++ (f ++ t)) = .ok (x, t) := by
  obtain ⟨a, b, e, hu⟩ := h
  have h1 := hu x t (by simp)
  exact unpack2_once f hne _ x t (by simp) (fun a' b' e' => (hu a' b' e').trans h1.symm)

theorem label_infix (f : Str) (fs vs : List Str) (hf : f ∈ fs) (hl : vs.length = fs.length) : f <:+: weave (fs.zip vs) := by
  induction fs generalizing vs with
  | nil => simp at hf
  | cons g gs ih =>
    cases vs with
    | nil => simp at hl
    | cons v vs =>
      rw [List.zip_cons_cons, weave]
      rcases List.mem_cons.1 hf with rfl | hf
      · exact ⟨[], v ++ weave (gs.zip vs), by simp⟩
      · obtain ⟨a, b, e⟩ := ih vs hf (by simpa using hl)
        exact ⟨g ++ (v ++ a), b, by rw [← e]; simp⟩

theorem fieldsLoop_once (fs vs : List Str) (v0 : Str) (hl : vs.length = fs.length) (hne : ∀ f ∈ fs, f ≠ [])
    (ho : ∀ f ∈ fs, Once f (v0 ++ weave (fs.zip vs))) (hnd : fs.Nodup) :
    fieldsLoop (v0 ++ weave (fs.zip vs)) fs = .ok (v0 :: vs) := by
  induction fs generalizing vs v0 with
  | nil =>
    cases vs with
    | nil => simp [fieldsLoop, weave]
    | cons v vs => simp at hl
  | cons f fs ih =>
    cases vs with
    | nil => simp at hl
    | cons v vs =>
      rw [List.zip_cons_cons, weave, fieldsLoop]
      have h1 := ho f (by simp)
      rw [List.zip_cons_cons, weave] at h1
      rw [unpack2_of_once f v0 _ (hne f (by simp)) h1]
      simp only
      rw [ih vs v (by simpa using hl) (fun g hg => hne g (by simp [hg])) ?_ (List.nodup_cons.1 hnd).2]
      intro g hg
      have h2 := ho g (by simp [hg])
      rw [List.zip_cons_cons, weave] at h2
      refine once_of_suffix g (v0 ++ f) _ (by simpa using h2) ?_
      obtain ⟨a, b, e⟩ := label_infix g fs vs hg (by simpa using hl)
      exact ⟨v ++ a, b, by rw [← e]; simp⟩

theorem fieldsLoop_sound (fs vs : List Str) (t : Str) (hne : ∀ f ∈ fs, f ≠ []) (h : fieldsLoop t fs = .ok vs) :
    ∃ v0 vs', vs = v0 :: vs' ∧ vs'.length = fs.length ∧ t = v0 ++ weave (fs.zip vs') := by
  induction fs generalizing vs t with
  | nil =>
    rw [fieldsLoop] at h
    cases h
    exact ⟨t, [], rfl, rfl, by simp [weave]⟩
  | cons f fs ih =>
    rw [fieldsLoop] at h
    split at h
    · cases h
    · rename_i init rest hu
      split at h
      · cases h
      · rename_i ws hw
        cases h
        obtain ⟨v0, vs', rfl, hl, e⟩ := ih ws rest (fun g hg => hne g (by simp [hg])) hw
        rw [unpack2_ok f (hne f (by simp))] at hu
        refine ⟨init, v0 :: vs', rfl, by simp [hl], ?_⟩
        rw [List.zip_cons_cons, weave, ← e, hu.1.1]
        simp

theorem last_infix (fs vs : List Str) (w : Str) (hl : vs.length = fs.length) (hw : vs.getLast? = some w) :
    w <:+: weave (fs.zip vs) := by
  induction fs generalizing vs with
  | nil =>
    rw [List.length_eq_zero_iff.1 hl] at hw
    simp at hw
  | cons f fs ih =>
    cases vs with
    | nil => simp at hl
    | cons v vs =>
      rw [List.zip_cons_cons, weave]
      cases vs with
      | nil =>
        simp only [List.getLast?_singleton, Option.some.injEq] at hw
        subst hw
        exact ⟨f, weave (fs.zip []), by simp⟩
      | cons u us =>
        rw [List.getLast?_cons_cons] at hw
        obtain ⟨a, b, e⟩ := ih (u :: us) (by simpa using hl) hw
        exact ⟨f ++ (v ++ a), b, by rw [← e]; simp⟩

theorem fieldsLoop_twice (fs vs : List Str) (v0 w : Str) (hl : vs.length = fs.length) (hne : ∀ f ∈ fs, f ≠ [])
    (hw : vs.getLast? = some w) (hr : ∃ f ∈ fs, f <:+: w)
    (ho : ∀ f ∈ fs, Once f (v0 ++ weave (fs.zip vs)) ∨ f <:+: w) :
    fieldsLoop (v0 ++ weave (fs.zip vs)) fs = .error .valueError := by
  induction fs generalizing vs v0 with
  | nil => simp at hr
  | cons f fs ih =>
    cases vs with
    | nil => simp at hl
    | cons v vs =>
      rw [List.zip_cons_cons, weave, fieldsLoop]
      by_cases hf : f <:+: w
      · have hin : w <:+: v ++ weave (fs.zip vs) := by
          cases vs with
          | nil =>
            simp only [List.getLast?_singleton, Option.some.injEq] at hw
            subst hw
            exact ⟨[], _, by simp; rfl⟩
          | cons u us =>
            rw [List.getLast?_cons_cons] at hw
            obtain ⟨a, b, e⟩ := last_infix fs (u :: us) w (by simpa using hl) hw
            exact ⟨v ++ a, b, by rw [← e]; simp⟩
        obtain ⟨a, b, e⟩ := hf.trans hin
        have := unpack2_twice f (hne f (by simp)) v0 a b
        rw [e] at this
        rw [← List.append_assoc, this]
      · have h1 := (ho f (by simp)).resolve_right hf
        rw [List.zip_cons_cons, weave] at h1
        rw [unpack2_of_once f v0 _ (hne f (by simp)) h1]
        simp only
        have hr' : ∃ f ∈ fs, f <:+: w := by
          obtain ⟨g, hg, hgw⟩ := hr
          rcases List.mem_cons.1 hg with rfl | hg
          · exact absurd hgw hf
          · exact ⟨g, hg, hgw⟩
        have hvs : vs ≠ [] := by
          rintro rfl
          obtain ⟨g, hg, _⟩ := hr'
          have : fs = [] := List.length_eq_zero_iff.1 (by simpa using hl.symm)
          simp [this] at hg
        obtain ⟨u, us, rfl⟩ := List.exists_cons_of_ne_nil hvs
        rw [ih (u :: us) v (by simpa using hl) (fun g hg => hne g (by simp [hg])) (by simpa using hw) hr' ?_]
        intro g hg
        rcases ho g (by simp [hg]) with h2 | h2
        · left
          rw [List.zip_cons_cons, weave] at h2
          refine once_of_suffix g (v0 ++ f) _ (by simpa using h2) ?_
          obtain ⟨a, b, e⟩ := label_infix g fs (u :: us) hg (by simpa using hl)
          exact ⟨v ++ a, b, by rw [← e]; simp⟩
        · exact .inr h2

theorem trimmed_strip (v w : Str) (h : Trimmed v w) : strip v = w := by
  obtain ⟨a, b, rfl, ha, hb, h1, h2⟩ := h
  exact strip_mid a w b ha hb h1 h2

theorem lstrip_split (v : Str) : ∃ a, v = a ++ lstrip v ∧ (∀ c ∈ a, isWs c = true) ∧
    ∀ c, (lstrip v).head? = some c → isWs c = false := by
  induction v with
  | nil => exact ⟨[], by simp [lstrip], by simp, by simp [lstrip]⟩
  | cons x xs ih =>
    by_cases hx : isWs x = true
    · obtain ⟨a, e, ha, hh⟩ := ih
      have el : lstrip (x :: xs) = lstrip xs := by simp [lstrip, hx]
      exact ⟨x :: a, by rw [el, List.cons_append, ← e], by simpa [hx] using ha, by rw [el]; exact hh⟩
    · have el : lstrip (x :: xs) = x :: xs := by simp [lstrip, hx]
      exact ⟨[], by rw [el]; rfl, by simp, by rw [el]; simpa using hx⟩

theorem strip_trimmed (v : Str) : Trimmed v (strip v) := by
  obtain ⟨a, e1, ha, hh⟩ := lstrip_split v
  obtain ⟨b, e2, hb, ht⟩ := lstrip_split (lstrip v).reverse
  have e3 : lstrip v = rstrip (lstrip v) ++ b.reverse := by
    rw [rstrip_eq]
    have := congrArg List.reverse e2
    simpa using this
  have hs : strip v = rstrip (lstrip v) := rfl
  refine ⟨a, b.reverse, ?_, ha, by simpa using hb, ?_, ?_⟩
  · rw [hs, List.append_assoc, ← e3]
    exact e1
  · intro c hc
    apply hh c
    rw [e3, ← hs]
    cases hv : strip v with
    | nil => rw [hv] at hc; simp at hc
    | cons y ys => rw [hv] at hc; simpa using hc
  · intro c hc
    apply ht c
    rw [hs, rstrip_eq, List.getLast?_reverse] at hc
    exact hc

theorem labels_ne : ∀ f ∈ headerFields, f ≠ [] := by decide
theorem labels_nodup : headerFields.Nodup := by decide
theorem labels_eq : headerFields = labels := rfl
theorem keys_eq : headerFields.map noColon = keys := by decide

theorem report_eq (vs ws : List Str) (h : List.Forall₂ Trimmed vs ws) :
    (headerFields.zip vs).map (fun p => (noColon p.1, strip p.2)) = keys.zip ws := by
  have : ws = vs.map strip := by
    induction h with
    | nil => rfl
    | cons hd _ ih => rw [List.map_cons, trimmed_strip _ _ hd, ← ih]
  rw [this, ← keys_eq, List.zip_map]
  rfl

/-- C95: if every label stands at one place of the header, in their order, each name is reported with
the text between its label and the next one, without surrounding white space -/
theorem C95_header_partial (pre : Str) (vs ws : List Str) (hl : vs.length = 5) (ht : List.Forall₂ Trimmed vs ws)
    (ho : ∀ f ∈ labels, Once f (pre ++ weave (labels.zip vs))) :
    parseMetadata (pre ++ weave (labels.zip vs)) = .ok (keys.zip ws) := by
  obtain ⟨v, vs', rfl⟩ : ∃ v vs', vs = v :: vs' := by
    cases vs with
    | nil => simp at hl
    | cons v vs' => exact ⟨v, vs', rfl⟩
  have e : labels = "Today's Date".toList :: labels.tail := rfl
  have hl4 : vs'.length = labels.tail.length := by
    have : vs'.length = 4 := by simpa using hl
    rw [this]
    rfl
  have key : splitFields (pre ++ weave (labels.zip (v :: vs'))) headerFields = .ok (v :: vs') := by
    rw [labels_eq, e]
    rw [e] at ho
    rw [List.zip_cons_cons, weave, splitFields]
    have h1 := ho "Today's Date".toList (by simp)
    rw [List.zip_cons_cons, weave] at h1
    rw [unpack2_of_once _ pre _ (by decide) h1]
    simp only
    apply fieldsLoop_once _ _ _ hl4 (by decide) ?_ (by decide)
    intro g hg
    have h2 := ho g (List.mem_cons_of_mem _ hg)
    rw [List.zip_cons_cons, weave] at h2
    refine once_of_suffix g (pre ++ "Today's Date".toList) _ (by simpa using h2) ?_
    obtain ⟨a, b, e'⟩ := label_infix g labels.tail vs' hg hl4
    exact ⟨v ++ a, b, by rw [← e']; simp⟩
  rw [parseMetadata, key]
  simp only
  rw [report_eq _ _ ht]

/-- C95: what is reported is a division of the header by the labels; nothing after the first label is
lost, and values only lose surrounding white space -/
theorem C95_lossless (s : Str) (r : List (Str × Str)) (h : parseMetadata s = .ok r) :
    ∃ (pre : Str) (vs ws : List Str), vs.length = 5 ∧ s = pre ++ weave (labels.zip vs) ∧ List.Forall₂ Trimmed vs ws ∧
      r = keys.zip ws := by
  rw [parseMetadata] at h
  split at h
  · cases h
  · rename_i vs hv
    cases h
    have e : headerFields = "Today's Date".toList :: headerFields.tail := rfl
    rw [e, splitFields] at hv
    split at hv
    · cases hv
    · rename_i init rest hu
      obtain ⟨v0, vs', rfl, hl, er⟩ := fieldsLoop_sound _ _ _ (by decide) hv
      rw [unpack2_ok _ (by decide)] at hu
      have hf : List.Forall₂ Trimmed (v0 :: vs') ((v0 :: vs').map strip) := by
        rw [List.forall₂_map_right_iff, List.forall₂_same]
        intro v _
        exact strip_trimmed v
      refine ⟨init, v0 :: vs', (v0 :: vs').map strip, by rw [List.length_cons, hl]; rfl, ?_, hf, report_eq _ _ hf⟩
      rw [← labels_eq, e, List.zip_cons_cons, weave, hu.1.1, er]
      simp

/-- C95 fails: a comment that contains one of the labels makes the file unreadable -/
theorem C95_comment_violated (pre : Str) (vs : List Str) (w f : Str) (hl : vs.length = 5) (hw : vs.getLast? = some w)
    (hf : f ∈ labels) (hi : f <:+: w) (ho : ∀ g ∈ labels, Once g (pre ++ weave (labels.zip vs)) ∨ g <:+: w) :
    parseMetadata (pre ++ weave (labels.zip vs)) = .error .valueError := by
  have := fieldsLoop_twice labels vs pre w (by rw [hl]; rfl) labels_ne hw ⟨f, hf, hi⟩ ho
  rw [parseMetadata, labels_eq]
  have e : labels = "Today's Date".toList :: labels.tail := rfl
  rw [e, fieldsLoop] at this
  rw [e, splitFields]
  split at this
  · simpa using this
  · split at this
    · cases this
      rfl
    · cases this

/-- a header -/
def header : Str := "Today's Date 04/16/2018 Date of Test: 04/16/2018 Filename: C:\\data\\a_000001.092 Procedure: a.000 Comment/Barcode: cell 7".toList

example : parseMetadata header = .ok (keys.zip ["04/16/2018".toList, "04/16/2018".toList, "C:\\data\\a_000001.092".toList, "a.000".toList, "cell 7".toList]) := by
  decide +kernel

example : parseMetadata (header ++ " as Procedure: b".toList) = .error .valueError := by decide +kernel

/-- the labels of a header stand at one place each (decided by comparing all places) -/
theorem once_of_positions (f s a b : Str) (e : s = a ++ f ++ b)
    (h : ∀ n < s.length + 1, f.isPrefixOf (s.drop n) = true → n = a.length) : Once f s := by
  refine ⟨a, b, e, fun a' b' e' => ?_⟩
  have h1 : a'.length < s.length + 1 := by rw [e']; simp; omega
  have h2 := h a'.length h1 (by
    rw [List.isPrefixOf_iff_prefix, e', List.append_assoc, List.drop_left]
    exact ⟨b', rfl⟩)
  rw [e] at e'
  rw [List.append_assoc, List.append_assoc] at e'
  exact ((List.append_inj e' h2.symm).1).symm

/-- a short header that meets the hypotheses of `C95_header_partial` -/
def shortValues : List Str := [" 1 ".toList, " 2 ".toList, " a ".toList, " p ".toList, " x".toList]

example : ∀ f ∈ labels, Once f (weave (labels.zip shortValues)) := by
  intro f hf
  simp only [labels, List.mem_cons, List.not_mem_nil, or_false] at hf
  rcases hf with rfl | rfl | rfl | rfl | rfl
  · exact once_of_positions _ _ ((weave (labels.zip shortValues)).take 0) ((weave (labels.zip shortValues)).drop 12) (by decide +kernel) (by decide +kernel)
  · exact once_of_positions _ _ ((weave (labels.zip shortValues)).take 15) ((weave (labels.zip shortValues)).drop 28) (by decide +kernel) (by decide +kernel)
  · exact once_of_positions _ _ ((weave (labels.zip shortValues)).take 31) ((weave (labels.zip shortValues)).drop 40) (by decide +kernel) (by decide +kernel)
  · exact once_of_positions _ _ ((weave (labels.zip shortValues)).take 43) ((weave (labels.zip shortValues)).drop 53) (by decide +kernel) (by decide +kernel)
  · exact once_of_positions _ _ ((weave (labels.zip shortValues)).take 56) ((weave (labels.zip shortValues)).drop 72) (by decide +kernel) (by decide +kernel)

/-- and one with a label in the comment, for `C95_comment_violated` -/
def commentValues : List Str := [" 1 ".toList, " 2 ".toList, " a ".toList, " p ".toList, " x Procedure: q".toList]

example : ∀ g ∈ labels, Once g (weave (labels.zip commentValues)) ∨ g <:+: " x Procedure: q".toList := by
  intro f hf
  simp only [labels, List.mem_cons, List.not_mem_nil, or_false] at hf
  rcases hf with rfl | rfl | rfl | rfl | rfl
  · exact .inl (once_of_positions _ _ ((weave (labels.zip commentValues)).take 0) ((weave (labels.zip commentValues)).drop 12) (by decide +kernel) (by decide +kernel))
  · exact .inl (once_of_positions _ _ ((weave (labels.zip commentValues)).take 15) ((weave (labels.zip commentValues)).drop 28) (by decide +kernel) (by decide +kernel))
  · exact .inl (once_of_positions _ _ ((weave (labels.zip commentValues)).take 31) ((weave (labels.zip commentValues)).drop 40) (by decide +kernel) (by decide +kernel))
  · exact .inr ⟨" x ".toList, " q".toList, by decide⟩
  · exact .inl (once_of_positions _ _ ((weave (labels.zip commentValues)).take 56) ((weave (labels.zip commentValues)).drop 72) (by decide +kernel) (by decide +kernel))

/-- C95: the channel is the number after the last dot of the file name -/
theorem C95_channel_partial (dir stem ds : Str) (n : Nat) (hd : dir = [] ∨ ∃ d, dir = d ++ ['/'])
    (hs : '/' ∉ stem) (hn : stem.any (· ≠ '.') = true) (hw : Written ds n) :
    channel (dir ++ (stem ++ '.' :: ds)) = ("channel_id".toList, some (n : Int)) := by
  have hds : ∀ c ∈ ds, c ≠ '/' ∧ c ≠ '.' := by
    intro c hc
    have := hw.2.1 c hc
    refine ⟨?_, ?_⟩ <;> (rintro rfl; exact absurd this (by decide))
  have h1 : '/' ∉ ds := fun h => (hds _ h).1 rfl
  have h2 : '.' ∉ ds := fun h => (hds _ h).2 rfl
  rw [channel, Proof.Batch.basename_append dir _ hd (by simp [hs, h1]), Batch.splitext, Proof.Batch.lastDot_append _ _ h2]
  simp only [hn, if_true]
  have : ('.' :: ds).filter (fun x => decide (x ≠ '.')) = ds := by
    rw [List.filter_cons]
    simp only [ne_eq, not_true_eq_false, decide_false, Bool.false_eq_true, if_false]
    rw [List.filter_eq_self]
    intro c hc
    simpa using (hds c hc).2
  rw [this, parseInt_written ds n hw]

/-- C95 fails: a file whose name does not end in a number has no channel entry at all; instead of an
empty one it has an entry of another name -/
theorem C95_channel_violated (path : Str) (h : (channel path).2 = none) : (channel path).1 = "channnel_id".toList := by
  unfold channel at *
  split at h
  · cases h
  · rfl

example : channel "a/PreDiag_000287.092".toList = ("channel_id".toList, some 92) := by decide +kernel
example : channel "a/PreDiag_000287.csv".toList = ("channnel_id".toList, none) := by decide +kernel

/-! ### C96 -/

theorem begins_eq (y t : Int) (h : Begins y t) : t = dstStart y + 8 * 3600 := by
  obtain ⟨d, h1, h2, h3, rfl⟩ := h
  unfold Sunday at h3
  unfold dstStart sundayFrom
  have : ordinal y 3 d = ordinal y 3 1 + (d - 1) := by unfold ordinal; ring
  omega

theorem ends_eq (y t : Int) (h : Ends y t) : t = dstEnd y + 7 * 3600 := by
  obtain ⟨d, h1, h2, h3, rfl⟩ := h
  unfold Sunday at h3
  unfold dstEnd sundayFrom
  have : ordinal y 11 d = ordinal y 11 1 + (d - 1) := by unfold ordinal; ring
  omega

theorem ends_exists (y : Int) : Ends y (dstEnd y + 7 * 3600) := by
  unfold dstEnd sundayFrom
  refine ⟨1 + (-ordinal y 11 1) % 7, by omega, by omega, ?_, ?_⟩ <;>
    have : ordinal y 11 (1 + (-ordinal y 11 1) % 7) = ordinal y 11 1 + (-ordinal y 11 1) % 7 := by unfold ordinal; ring
  · unfold Sunday; omega
  · rw [this]; ring

theorem begins_exists (y : Int) : Begins y (dstStart y + 8 * 3600) := by
  unfold dstStart sundayFrom
  refine ⟨8 + (-ordinal y 3 1) % 7, by omega, by omega, ?_, ?_⟩ <;>
    have : ordinal y 3 (8 + (-ordinal y 3 1) % 7) = ordinal y 3 1 + (-ordinal y 3 1) % 7 + 7 := by unfold ordinal; ring
  · unfold Sunday; omega
  · rw [this]; ring

/-- March is well before November -/
theorem start_lt_end (y : Int) : dstStart y + 200 * 86400 < dstEnd y := by
  have e : ordinal y 11 1 = ordinal y 3 1 + 245 := by simp [ordinal, daysBeforeMonth]; ring
  unfold dstStart dstEnd sundayFrom
  rw [e]
  omega

/-- the days are counted one after the other: within a month, from month to month and from year to year;
day 737366, 3 November 2019, is a Sunday -/
theorem C96_calendar (y m d : Int) :
    ordinal y m (d + 1) = ordinal y m d + 1 ∧
    (1 ≤ m → m ≤ 11 → ordinal y (m + 1) 1 = ordinal y m (daysInMonth y m) + 1) ∧
    ordinal (y + 1) 1 1 = ordinal y 12 31 + 1 ∧ ordinal 1 1 1 = 1 ∧
    ordinal 2019 11 3 = 737366 ∧ Sunday (ordinal 2019 11 3) := by
  refine ⟨by unfold ordinal; ring, ?_, ?_, by decide, by decide, by unfold Sunday; decide⟩
  · intro h1 h2
    have hm : m = 1 ∨ m = 2 ∨ m = 3 ∨ m = 4 ∨ m = 5 ∨ m = 6 ∨ m = 7 ∨ m = 8 ∨ m = 9 ∨ m = 10 ∨ m = 11 := by omega
    rcases hm with rfl | rfl | rfl | rfl | rfl | rfl | rfl | rfl | rfl | rfl | rfl <;>
      simp [ordinal, daysBeforeMonth, daysInMonth] <;> omega
  · have hf : feb y = 28 + (if y % 4 = 0 ∧ (y % 100 ≠ 0 ∨ y % 400 = 0) then 1 else 0) := by
      unfold feb isLeap
      by_cases h4 : y % 4 = 0 <;> by_cases h1 : y % 100 = 0 <;> by_cases h0 : y % 400 = 0 <;> simp [h4, h1, h0]
    simp only [ordinal, daysBeforeMonth, daysBeforeYear]
    simp only [show (12 : Int) ≠ 1 by decide, show (12 : Int) ≠ 2 by decide, show (12 : Int) ≠ 3 by decide,
      show (12 : Int) ≠ 4 by decide, show (12 : Int) ≠ 5 by decide, show (12 : Int) ≠ 6 by decide,
      show (12 : Int) ≠ 7 by decide, show (12 : Int) ≠ 8 by decide, show (12 : Int) ≠ 9 by decide,
      show (12 : Int) ≠ 10 by decide, show (12 : Int) ≠ 11 by decide, if_false, if_true, hf]
    split <;> omega

theorem valid_iff (y m d h mi s : Int) : validStamp y m d h mi s = true ↔ IsDate y m d ∧ IsTime h mi s := by
  have hf : feb y = 28 + (if y % 4 = 0 ∧ (y % 100 ≠ 0 ∨ y % 400 = 0) then 1 else 0) := by
    unfold feb isLeap
    by_cases h4 : y % 4 = 0 <;> by_cases h1 : y % 100 = 0 <;> by_cases h0 : y % 400 = 0 <;> simp [h4, h1, h0]
  unfold validStamp IsDate IsTime daysInMonth
  rw [decide_eq_true_eq, hf]
  simp only [List.mem_cons, List.not_mem_nil, or_false]
  split
  · split <;> omega
  · split <;> omega

theorem shown (t y m d h mi s : Int) (hs : Shows t y m d h mi s) :
    correctTimestamp (.full y m d h mi s) = .ok (if dstEnd y + 7 * 3600 ≤ t ∧ t < dstEnd y + 8 * 3600 then t - 3600 else t) := by
  obtain ⟨hv1, hv2, b, e, hb, he, hc⟩ := hs
  rw [correctTimestamp, if_pos ((valid_iff y m d h mi s).mpr ⟨hv1, hv2⟩)]
  congr 1
  have h1 := begins_eq y b hb
  have h2 := ends_eq y e he
  have h3 := start_lt_end y
  unfold toUtc seconds
  simp only
  rcases hc with ⟨c1, c2, c3⟩ | ⟨c1, c3⟩
  · rw [if_pos (by constructor <;> omega), if_neg (by omega)]
    omega
  · by_cases hr : dstEnd y + 7 * 3600 ≤ t ∧ t < dstEnd y + 8 * 3600
    · rw [if_pos hr, if_pos (by constructor <;> omega)]
      omega
    · rw [if_neg hr, if_neg (by omega)]
      omega

/-- C96: the date and time shown by Californian clocks at an instant outside the repeated hour are
converted to this instant -/
theorem C96_utc_partial (t y m d h mi s : Int) (_hy : 2007 ≤ y) (hs : Shows t y m d h mi s) (hr : ¬ RepeatedHour y t) :
    correctTimestamp (.full y m d h mi s) = .ok t := by
  rw [shown t y m d h mi s hs, if_neg]
  rintro ⟨h1, h2⟩
  exact hr ⟨_, ends_exists y, h1, by omega⟩

/-- C96: a stamp that has lost its time, printed at midnight, is converted to midnight -/
theorem C96_midnight (t y m d : Int) (_hy : 2007 ≤ y) (hs : Shows t y m d 0 0 0) : correctTimestamp (.date y m d) = .ok t := by
  have h1 := shown t y m d 0 0 0 hs
  have e0 : correctTimestamp (.date y m d) = correctTimestamp (.full y m d 0 0 0) := by simp only [correctTimestamp]
  rw [e0, h1, if_neg]
  rintro ⟨h2, h3⟩
  obtain ⟨_, _, b, e, hb, he, hc⟩ := hs
  have h4 := ends_eq y e he
  unfold dstEnd at h2 h3 h4
  rcases hc with ⟨c1, c2, c3⟩ | ⟨c1, c3⟩ <;> omega

/-- C96 fails: what is recorded in the hour after the end of daylight saving time is dated one hour too
early -/
theorem C96_repeated_violated (t y m d h mi s : Int) (_hy : 2007 ≤ y) (hs : Shows t y m d h mi s) (hr : RepeatedHour y t) :
    correctTimestamp (.full y m d h mi s) = .ok (t - 3600) := by
  rw [shown t y m d h mi s hs, if_pos]
  obtain ⟨e, he, h1, h2⟩ := hr
  have := ends_eq y e he
  exact ⟨by omega, by omega⟩

/-- C96 fails: of two records, less than one hour apart, the later one is dated before the earlier one
if daylight saving time ends between them -/
theorem C96_order_violated (t t' y m d h mi s m' d' h' mi' s' : Int) (_hy : 2007 ≤ y)
    (hs : Shows t y m d h mi s) (hs' : Shows t' y m' d' h' mi' s') (e : Int) (he : Ends y e)
    (h1 : t < e) (h2 : e ≤ t') (h3 : t' < t + 3600) :
    ∃ u u', correctTimestamp (.full y m d h mi s) = .ok u ∧ correctTimestamp (.full y m' d' h' mi' s') = .ok u' ∧ u' < u := by
  have e1 := ends_eq y e he
  refine ⟨_, _, shown t y m d h mi s hs, shown t' y m' d' h' mi' s' hs', ?_⟩
  rw [if_pos (by constructor <;> omega), if_neg (by omega)]
  omega

/-- C96: anything else is refused -/
theorem C96_refused (y m d h mi s : Int) (hv : ¬ (IsDate y m d ∧ IsTime h mi s)) :
    correctTimestamp (.full y m d h mi s) = .error .valueError ∧ correctTimestamp .other = .error .valueError := by
  rw [← valid_iff] at hv
  simp [correctTimestamp, hv]

/-- 29 February of a year without it -/
example : ¬ (IsDate 1900 2 29 ∧ IsTime 0 0 0) ∧ IsDate 2000 2 29 := by decide +kernel

/-- half past one on 3 November 2019, standard time, and half an hour before -/
example : Shows ((737366 * 24 + 9) * 3600 + 1800) 2019 11 3 1 30 0 ∧ RepeatedHour 2019 ((737366 * 24 + 9) * 3600 + 1800) := by
  have h1 := begins_exists 2019
  have h2 := ends_exists 2019
  have e1 : dstStart 2019 = (737128 * 24 + 2) * 3600 := by decide
  have e2 : dstEnd 2019 = (737366 * 24 + 2) * 3600 := by decide
  rw [e1] at h1
  rw [e2] at h2
  exact ⟨⟨by decide, by decide, _, _, h1, h2, .inr ⟨by decide, by decide⟩⟩, _, h2, by decide, by decide⟩

example : Shows ((737366 * 24 + 8) * 3600 + 3599) 2019 11 3 1 59 59 := by
  have h1 := begins_exists 2019
  have h2 := ends_exists 2019
  have e1 : dstStart 2019 = (737128 * 24 + 2) * 3600 := by decide
  have e2 : dstEnd 2019 = (737366 * 24 + 2) * 3600 := by decide
  rw [e1] at h1
  rw [e2] at h2
  exact ⟨by decide, by decide, _, _, h1, h2, .inl ⟨by decide, by decide, by decide⟩⟩

/-- midnight before that day, daylight time -/
example : Shows ((737366 * 24 + 7) * 3600) 2019 11 3 0 0 0 := by
  have h1 := begins_exists 2019
  have h2 := ends_exists 2019
  have e1 : dstStart 2019 = (737128 * 24 + 2) * 3600 := by decide
  have e2 : dstEnd 2019 = (737366 * 24 + 2) * 3600 := by decide
  rw [e1] at h1
  rw [e2] at h2
  exact ⟨by decide, by decide, _, _, h1, h2, .inl ⟨by decide, by decide, by decide⟩⟩

/-! ### C97 -/

/-- C97: if the table has three groups of columns that stand in the order of its names, it is read as it
was saved -/
theorem C97_table_partial (f : Hdf) (h3 : f.blocks.length = 3) (h : (saved f).map Prod.fst = f.axis0) :
    readTable f = .ok (saved f) := by
  obtain ⟨ax, bl⟩ := f
  match bl, h3 with
  | [b0, b1, b2], _ =>
    have es : saved ⟨ax, [b0, b1, b2]⟩ = b0 ++ b1 ++ b2 := by simp [saved]
    rw [es] at h ⊢
    simp only at h
    rw [readTable]
    simp only
    have hl : ((b0 ++ b1 ++ b2).map Prod.snd).length = ax.length := by rw [← h, List.length_map, List.length_map]
    rw [if_pos hl, ← h]
    congr 1
    rw [List.zip_map', List.map_id'']
    intro p
    rfl

/-- C97 fails: if the groups are in any other order, some column is read under the name of another one -/
theorem C97_table_violated (f : Hdf) (h3 : f.blocks.length = 3) (hw : Wellformed f) (h : (saved f).map Prod.fst ≠ f.axis0) :
    ∃ (t : List (String × Column)) (name other : String) (c : Column), readTable f = .ok t ∧ (name, c) ∈ t ∧
      name ≠ other ∧ (other, c) ∈ saved f := by
  obtain ⟨ax, bl⟩ := f
  match bl, h3 with
  | [b0, b1, b2], _ =>
    obtain ⟨hnd, hp⟩ := hw
    have es : saved ⟨ax, [b0, b1, b2]⟩ = b0 ++ b1 ++ b2 := by simp [saved]
    rw [es] at h hp ⊢
    simp only at h hp hnd
    have hlen : (b0 ++ b1 ++ b2).length = ax.length := by simpa using hp.length_eq
    have hex : ∃ i, ∃ hi : i < ax.length, ∃ hj : i < (b0 ++ b1 ++ b2).length, ((b0 ++ b1 ++ b2)[i]'hj).1 ≠ ax[i]'hi := by
      by_contra hc
      push Not at hc
      apply h
      apply List.ext_getElem (by simpa using hlen)
      intro i h1 h2
      rw [List.getElem_map]
      exact hc i h2 (by simpa using h1)
    obtain ⟨i, hi, hj, hne⟩ := hex
    refine ⟨ax.zip ((b0 ++ b1 ++ b2).map Prod.snd), ax[i], ((b0 ++ b1 ++ b2)[i]'hj).1, ((b0 ++ b1 ++ b2)[i]'hj).2, ?_, ?_, Ne.symm hne, ?_⟩
    · rw [readTable]
      simp only
      rw [if_pos (by simpa using hlen)]
    · rw [List.mem_iff_getElem]
      refine ⟨i, by simp only [List.length_zip, List.length_map]; omega, ?_⟩
      rw [List.getElem_zip, List.getElem_map]
    · exact List.getElem_mem hj

/-- C97 fails: a table whose columns do not have exactly three types is not read at all -/
theorem C97_types_violated (f : Hdf) (hw : Wellformed f) (h3 : f.blocks.length ≠ 3) (hne : ∀ b ∈ f.blocks, b ≠ []) :
    readTable f = .error .valueError := by
  obtain ⟨ax, bl⟩ := f
  match bl, h3 with
  | [], _ => rfl
  | [_], _ => rfl
  | [_, _], _ => rfl
  | [_, _, _], h => simp at h
  | b0 :: b1 :: b2 :: b3 :: bs, _ =>
    rw [readTable]
    simp only
    rw [if_neg]
    have := hw.2.length_eq
    simp only [saved, List.length_map, List.flatten_cons, List.length_append] at this
    have h0 : 0 < b3.length := List.length_pos_iff.2 (hne b3 (by simp))
    simp only [List.length_map, List.length_append]
    omega

/-- C97: half cycles with an odd number charge, the others discharge; the capacity of a row is its
charge in ampere hours, and zero in the other direction -/
theorem C97_capacity (r : IndigoRow) :
    (r.halfCycle % 2 = 1 → (indigoRow r).chargeCapacity * 3600 = |r.coulomb| ∧ (indigoRow r).dischargeCapacity = 0 ∧
      (indigoRow r).dischargeEnergy = 0) ∧
    (r.halfCycle % 2 = 0 → (indigoRow r).dischargeCapacity * 3600 = |r.coulomb| ∧ (indigoRow r).chargeCapacity = 0 ∧
      (indigoRow r).chargeEnergy = 0) := by
  have ha : ∀ q : Rat, Pandas.absR q = |q| := by
    intro q
    unfold Pandas.absR
    split
    · rename_i h; rw [abs_of_neg h]
    · rename_i h; rw [abs_of_nonneg (not_lt.1 h)]
  constructor
  · intro h
    rw [indigoRow, if_pos h]
    refine ⟨?_, rfl, rfl⟩
    show Pandas.absR r.coulomb / 3600 * 3600 = _
    rw [ha]
    ring
  · intro h
    rw [indigoRow, if_neg (by omega)]
    refine ⟨?_, rfl, rfl⟩
    show Pandas.absR r.coulomb / 3600 * 3600 = _
    rw [ha]
    ring

/-- C97 fails: energies are reported in joules, not in watt hours -/
theorem C97_energy_violated (r : IndigoRow) (hj : r.energyJ ≠ 0) :
    (indigoRow r).chargeEnergy + (indigoRow r).dischargeEnergy = 3600 * (|r.energyJ| / 3600) ∧
    (indigoRow r).chargeEnergy + (indigoRow r).dischargeEnergy ≠ |r.energyJ| / 3600 := by
  have ha : Pandas.absR r.energyJ = |r.energyJ| := by
    unfold Pandas.absR
    split
    · rename_i h; rw [abs_of_neg h]
    · rename_i h; rw [abs_of_nonneg (not_lt.1 h)]
  have h0 : 0 < |r.energyJ| := abs_pos.2 hj
  unfold indigoRow
  split <;> simp only [ha, add_zero, zero_add] <;> exact ⟨by ring, by intro h; linarith⟩

/-- C97: a file with the data of several cells is refused, and a file of one cell is read -/
theorem C97_cell (ids : List Int) (rows : List IndigoRow) (c : Int) (hc : c ∈ ids) :
    ((∃ d ∈ ids, d ≠ c) → indigo ids rows = .error .valueError) ∧
    ((∀ d ∈ ids, d = c) → indigo ids rows = .ok (c, rows.map indigoRow)) := by
  cases ids with
  | nil => simp at hc
  | cons a as =>
    have hm := fun x : Int => mem_unique (l := a :: as) (a := x)
    have hnd := nodup_unique (a :: as)
    constructor
    · rintro ⟨d, hd, hne⟩
      rw [indigo, if_pos]
      rcases hu : unique (a :: as) with _ | ⟨u, _ | ⟨v, l⟩⟩
      · have := (hm c).2 hc; rw [hu] at this; simp at this
      · have h1 := (hm c).2 hc
        have h2 := (hm d).2 hd
        rw [hu, List.mem_singleton] at h1 h2
        exact absurd (h2.trans h1.symm) hne
      · simp
    · intro h
      rw [indigo, if_neg, h a (by simp)]
      rcases hu : unique (a :: as) with _ | ⟨u, _ | ⟨v, l⟩⟩
      · simp
      · simp
      · exfalso
        rw [hu] at hm hnd
        have h1 := h u ((hm u).1 (by simp))
        have h2 := h v ((hm v).1 (by simp))
        rw [h1, h2] at hnd
        simp at hnd

/-- a table of four columns -/
def table : Hdf := ⟨["half_cycle_count", "cell_voltage_v", "cell_id", "cell_current_a"],
  [[("cell_voltage_v", [3, 4]), ("cell_current_a", [1, -1])], [("half_cycle_count", [1, 2])], [("cell_id", [7, 7])]]⟩

example : Wellformed table ∧ readTable table =
    .ok [("half_cycle_count", [3, 4]), ("cell_voltage_v", [1, -1]), ("cell_id", [1, 2]), ("cell_current_a", [7, 7])] := by
  refine ⟨⟨by decide, ?_⟩, by decide +kernel⟩
  rw [← List.isPerm_iff]
  decide

end Beep.Props.Ingest
