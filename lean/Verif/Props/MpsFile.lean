import Verif.Props.Settings
import Verif.Props.MtbPartition
/-
C137: the settings file of a converted Maccor procedure.  C139: reading it.
-/
namespace Beep.Props.MpsFile
open Beep Beep.Settings Beep.Text Beep.FixedWidth Beep.Spec.FixedWidth Beep.Spec.Settings
open Beep.Proof.Settings Beep.Props.FixedWidth Beep.Props.Settings

/-- the text of the repetitions of a technique -/
def times (t : MtB.Technique) : Option Str := if t.loops then some (toString t.numLoops).toList else none

theorem intText_eq (n : Int) : intText n = (toString n).toList := by
  unfold intText digits
  cases n with
  | ofNat m => rw [if_neg (show ¬ Int.ofNat m < 0 from Int.not_lt.mpr (Int.natCast_nonneg m))]; simp [toString, Int.repr, Nat.repr]
  | negSucc m => rw [if_pos (by omega)]; simp [toString, Int.repr, Nat.repr]

theorem rows_lines {w : Nat} {keys : List Str} {seqs : List (Dict Str Str)} {rows : List Str} (h : seqsToRows w keys seqs = .ok rows) :
    rows = tableLines w keys seqs := by
  rw [(seqsToRows_ok w keys seqs rows h).1]
  unfold tableLines rowText column
  simp only [List.map_cons, List.flatten_cons, List.map_map]
  rfl

theorem mpsTechnique_ok (t : MtB.Technique) (seqs : List (Dict Str Str)) (ls : List Str) (h : mpsTechnique t seqs = .ok ls) :
    ls = block blankKeys (digits t.num) (digits (t.num + 1)) (times t) seqs ∧ ∃ rows, seqsToRows 20 blankKeys seqs = .ok rows := by
  unfold mpsTechnique at h
  cases hr : seqsToRows 20 blankKeys seqs with
  | error e => rw [hr] at h; cases h
  | ok rows =>
    rw [hr] at h
    simp only [bind, Except.bind, pure, Except.pure, Except.ok.injEq] at h
    refine ⟨?_, rows, rfl⟩
    rw [← h, rows_lines hr]
    unfold block times
    cases t.loops with
    | false => simp
    | true => simp only [if_true, intText_eq]; rfl

theorem mpsTechniques_ok (conv : List (MtB.Technique × List (Dict Str Str))) (ls : List Str) (h : mpsTechniques conv = .ok ls) :
    ls = (conv.map (fun c => block blankKeys (digits c.1.num) (digits (c.1.num + 1)) (times c.1) c.2)).flatten := by
  induction conv generalizing ls with
  | nil => cases h; rfl
  | cons c conv ih =>
    obtain ⟨t, seqs⟩ := c
    rw [mpsTechniques] at h
    cases ha : mpsTechnique t seqs with
    | error e => rw [ha] at h; cases h
    | ok a =>
      rw [ha] at h
      cases hb : mpsTechniques conv with
      | error e => rw [hb] at h; cases h
      | ok b =>
        rw [hb] at h
        cases h
        rw [ih b hb, (mpsTechnique_ok t seqs a ha).1]
        rfl

theorem no_heading {l : Str} (h : ¬ "Technique : ".toList <+: l) : after "Technique : ".toList l = none := if_neg h

theorem first_differs {p l : Str} (h : p.head? ≠ l.head?) (hp : p ≠ []) : ¬ p <+: l := by
  rintro ⟨t, rfl⟩
  cases p with
  | nil => exact hp rfl
  | cons c cs => exact h rfl

theorem header_no_heading (n vmin vmax : Str) : headings (mpsHeader n vmin vmax) = [] := by
  unfold headings
  rw [List.filterMap_eq_nil_iff]
  intro l hl
  apply no_heading
  simp only [mpsHeader, List.mem_cons, List.not_mem_nil, or_false] at hl
  rcases hl with rfl | rfl | rfl | rfl | rfl | rfl | rfl | rfl | rfl | rfl | rfl | rfl | rfl | rfl | rfl | rfl | rfl | rfl | rfl |
    rfl | rfl | rfl | rfl | rfl | rfl | rfl | rfl | rfl | rfl | rfl | rfl <;>
    first | decide +kernel | exact first_differs (show some 'T' ≠ some 'N' by decide) (by decide) | exact first_differs (show some 'T' ≠ some '\t' by decide) (by decide)

theorem keys_no_heading : ∀ k ∈ blankKeys, (padded 20 k).length = 20 ∧ ¬ "Technique : ".toList <+: padded 20 k := by
  unfold padded
  decide +kernel

theorem table_no_heading (seqs : List (Dict Str Str)) : headings (tableLines 20 blankKeys seqs) = [] := by
  unfold headings
  rw [List.filterMap_eq_nil_iff]
  intro l hl
  apply no_heading
  obtain ⟨k, hk, rfl⟩ := List.mem_map.mp hl
  intro hp
  obtain ⟨h1, h2⟩ := keys_no_heading k hk
  exact h2 (List.prefix_of_prefix_length_le hp (List.prefix_append _ _) (by rw [h1]; decide))

theorem headings_append (a b : List Str) : headings (a ++ b) = headings a ++ headings b := List.filterMap_append

theorem heading_some (n : Str) : after "Technique : ".toList ("Technique : ".toList ++ n) = some n := by
  unfold after
  rw [if_pos (List.prefix_append _ _), List.drop_left]

theorem block_headings (number next : Str) (r : Option Str) (seqs : List (Dict Str Str)) :
    headings (block blankKeys number next r seqs) = number :: (match r with
      | none => []
      | some _ => [next]) := by
  unfold block
  rw [headings_append, headings_append, table_no_heading, List.append_nil]
  have h0 : after "Technique : ".toList "".toList = none := by decide +kernel
  have h1 : after "Technique : ".toList "Modulo Bat".toList = none := by decide +kernel
  have h2 : after "Technique : ".toList "Loop".toList = none := by decide +kernel
  have ha : headings ["".toList, "Technique : ".toList ++ number, "Modulo Bat".toList] = [number] := by
    unfold headings
    rw [List.filterMap_cons_none h0, List.filterMap_cons_some (heading_some number), List.filterMap_cons_none h1]
    rfl
  rw [ha]
  cases r with
  | none => rfl
  | some v =>
    have h3 : after "Technique : ".toList (padded 20 "goto Ne".toList ++ padded 20 number) = none :=
      no_heading (first_differs (show some 'T' ≠ some 'g' by decide) (by decide))
    have h4 : after "Technique : ".toList (padded 20 "nt times".toList ++ padded 20 v) = none :=
      no_heading (first_differs (show some 'T' ≠ some 'n' by decide) (by decide))
    unfold headings
    simp only
    rw [List.filterMap_cons_none h0, List.filterMap_cons_some (heading_some next), List.filterMap_cons_none h2,
      List.filterMap_cons_none h3, List.filterMap_cons_none h4]
    rfl

/-- the techniques are numbered from `a` up to before `b` -/
def Numbered : Nat → List MtB.Technique → Nat → Prop
  | a, [], b => a = b
  | a, t :: ts, b => t.num = a ∧ Numbered (if t.loops then a + 2 else a + 1) ts b

theorem tiling_numbered {pos num : Nat} {steps : List MtB.Step} {ts : List MtB.Technique} (h : Spec.MtB.Tiling pos num steps ts) :
    ∃ b, Numbered num ts b := by
  induction h with
  | done pos num => exact ⟨num, rfl⟩
  | plain pos num t rest ts hl ho hn hne _ ih =>
    obtain ⟨b, hb⟩ := ih
    exact ⟨b, hn, by rw [hl]; exact hb⟩
  | loop pos num t d l rest ts hl ho hn hd hc hk _ ih =>
    obtain ⟨b, hb⟩ := ih
    exact ⟨b, hn, by rw [hl]; exact hb⟩

theorem numbered_le {a b : Nat} {ts : List MtB.Technique} (h : Numbered a ts b) : a ≤ b := by
  induction ts generalizing a with
  | nil => exact h.le
  | cons t ts ih =>
    have := ih h.2
    split at this <;> omega

theorem body_headings (conv : List (MtB.Technique × List (Dict Str Str))) (a b : Nat) (h : Numbered a (conv.map Prod.fst) b) :
    headings ((conv.map (fun c => block blankKeys (digits c.1.num) (digits (c.1.num + 1)) (times c.1) c.2)).flatten) =
      (List.range' a (b - a)).map digits := by
  induction conv generalizing a with
  | nil =>
    have h : a = b := h
    rw [h, Nat.sub_self]; rfl
  | cons c conv ih =>
    rw [List.map_cons, List.flatten_cons, headings_append, block_headings]
    have hn : c.1.num = a := h.1
    have hle := numbered_le h.2
    rw [ih _ h.2, hn]
    unfold times
    cases hl : c.1.loops with
    | false =>
      rw [hl] at hle
      simp only [Bool.false_eq_true, if_false] at hle ⊢
      rw [show b - a = (b - (a + 1)) + 1 by omega, List.range'_succ]
      rfl
    | true =>
      rw [hl] at hle
      simp only [if_true] at hle ⊢
      rw [show b - a = (b - (a + 2)) + 1 + 1 by omega, List.range'_succ, List.range'_succ]
      rfl

theorem numbered_last {a b : Nat} {ts : List MtB.Technique} (h : Numbered a ts b) (l : MtB.Technique) (hl : ts.getLast? = some l) :
    b = (if l.loops then l.num + 1 else l.num) + 1 := by
  induction ts generalizing a with
  | nil => cases hl
  | cons t ts ih =>
    cases ts with
    | nil =>
      simp only [List.getLast?_singleton, Option.some.injEq] at hl
      subst hl
      obtain ⟨h1, h2⟩ := h
      have h2 : (if t.loops then a + 2 else a + 1) = b := h2
      rw [← h2, h1]
      split <;> rfl
    | cons t' ts =>
      rw [List.getLast?_cons_cons] at hl
      exact ih h.2 hl

theorem mpsLines_ok (vmin vmax : Str) (conv : List (MtB.Technique × List (Dict Str Str))) (lines : List Str)
    (h : mpsLines vmin vmax conv = .ok lines) :
    ∃ l, conv.getLast? = some l ∧
      lines = mpsHeader (digits (if l.1.loops then l.1.num + 1 else l.1.num)) vmin vmax ++
        (conv.map (fun c => block blankKeys (digits c.1.num) (digits (c.1.num + 1)) (times c.1) c.2)).flatten := by
  unfold mpsLines at h
  cases hl : conv.getLast? with
  | none => rw [hl] at h; cases h
  | some l =>
    rw [hl] at h
    simp only at h
    cases hb : mpsTechniques conv with
    | error e => rw [hb] at h; cases h
    | ok b =>
      rw [hb] at h
      cases h
      exact ⟨l, rfl, by rw [mpsTechniques_ok conv b hb]⟩

theorem keys_eq : blankKeys = moduloBatKeys := by decide +kernel

/-- C137: the techniques of the file of a converted procedure are numbered 1, 2, 3, …, and the header announces
their number. -/
theorem C137_numbers (steps : List MtB.Step) (ts : List MtB.Technique) (hp : MtB.partition steps = .ok ts)
    (conv : List (MtB.Technique × List (Dict Str Str))) (hc : conv.map Prod.fst = ts) (vmin vmax : Str) (lines : List Str)
    (h : mpsLines vmin vmax conv = .ok lines) :
    ∃ n : Nat, headings lines = (List.range n).map (fun i => (toString (i + 1)).toList) ∧
      lines[2]? = some ("Number of linked techniques : ".toList ++ (toString n).toList) := by
  obtain ⟨l, hl, he⟩ := mpsLines_ok vmin vmax conv lines h
  have hne : steps ≠ [] := by
    rintro rfl
    cases hp
  rcases MtbPartition.C24_cover steps hne with ⟨ts', h1, h2⟩ | ⟨⟨e, h1⟩, _⟩
  · rw [hp] at h1
    cases h1
    obtain ⟨b, hb⟩ := tiling_numbered h2
    have hb' : Numbered 1 (conv.map Prod.fst) b := by rw [hc]; exact hb
    have hlast := numbered_last hb' l.1 (by rw [List.getLast?_map, hl]; rfl)
    refine ⟨if l.1.loops then l.1.num + 1 else l.1.num, ?_, ?_⟩
    · rw [he, headings_append, header_no_heading, List.nil_append, body_headings conv 1 b hb', hlast, Nat.add_sub_cancel,
        List.range'_eq_map_range, List.map_map]
      apply List.map_congr_left
      intro i _
      simp only [Function.comp, Nat.add_comm 1 i]
      simp [digits, toString, Nat.repr]
    · rw [he]
      simp [mpsHeader, digits, toString, Nat.repr]
  · rw [hp] at h1; cases h1

/-- C137: below a header without techniques, the file has the block of each technique in order; a technique that
the procedure repeats is followed by one that goes back to it as many times. -/
theorem C137_blocks (vmin vmax : Str) (conv : List (MtB.Technique × List (Dict Str Str))) (lines : List Str)
    (h : mpsLines vmin vmax conv = .ok lines) :
    ∃ header, headings header = [] ∧ header[2]?.isSome = true ∧
      lines = header ++ (conv.map (fun c => block moduloBatKeys (toString c.1.num).toList (toString (c.1.num + 1)).toList
        (if c.1.loops then some (toString c.1.numLoops).toList else none) c.2)).flatten := by
  rw [← keys_eq]
  obtain ⟨l, _, he⟩ := mpsLines_ok vmin vmax conv lines h
  refine ⟨_, header_no_heading (digits (if l.1.loops then l.1.num + 1 else l.1.num)) vmin vmax, rfl, ?_⟩
  rw [he]
  have e : ∀ n : Nat, digits n = (toString n).toList := by intro n; simp [digits, toString, Nat.repr]
  simp only [e, times]

/-- C137: the head of the file says nothing about the procedure but the number of techniques and the safety voltages. -/
theorem C137_head (vmin vmax : Str) (conv : List (MtB.Technique × List (Dict Str Str))) (lines : List Str)
    (h : mpsLines vmin vmax conv = .ok lines) :
    ∃ n : Nat, lines.take 31 = fileHead (toString n).toList vmin vmax := by
  obtain ⟨l, _, he⟩ := mpsLines_ok vmin vmax conv lines h
  have e : ∀ n : Nat, digits n = (toString n).toList := by intro n; simp [digits, toString, Nat.repr]
  refine ⟨if l.1.loops then l.1.num + 1 else l.1.num, ?_⟩
  rw [he, e]
  generalize (toString (if l.1.loops then l.1.num + 1 else l.1.num)).toList = n
  rw [List.take_append_of_le_length (by rfl)]
  rfl

/-- C137: no file is written exactly when there is no technique, or a sequence has no value for a field or one
that is wider than a column. -/
theorem C137_refused (vmin vmax : Str) (conv : List (MtB.Technique × List (Dict Str Str))) :
    (∃ e, mpsLines vmin vmax conv = .error e) ↔
      conv = [] ∨ ∃ c ∈ conv, ∃ k ∈ moduloBatKeys, ∃ s ∈ c.2, s.get? k = none ∨ ∃ v, s.get? k = some v ∧ 20 < v.length := by
  rw [← keys_eq]
  have hw : ∀ k ∈ blankKeys, ¬ k.length > 20 := by decide +kernel
  have hone : ∀ (t : MtB.Technique) (seqs : List (Dict Str Str)), (∃ e, mpsTechnique t seqs = .error e) ↔
      ∃ k ∈ blankKeys, ∃ s ∈ seqs, s.get? k = none ∨ ∃ v, s.get? k = some v ∧ 20 < v.length := by
    intro t seqs
    have h1 : (∃ e, mpsTechnique t seqs = .error e) ↔ ∃ e, seqsToRows 20 blankKeys seqs = .error e := by
      unfold mpsTechnique
      cases seqsToRows 20 blankKeys seqs with
      | error e => exact ⟨fun _ => ⟨e, rfl⟩, fun _ => ⟨e, rfl⟩⟩
      | ok rows => exact ⟨fun ⟨e, he⟩ => (by cases he), fun ⟨e, he⟩ => (by cases he)⟩
    rw [h1, C35_refused]
    constructor
    · rintro ⟨k, hk, hl | hs⟩
      · exact absurd hl (hw k hk)
      · exact ⟨k, hk, hs⟩
    · rintro ⟨k, hk, hs⟩
      exact ⟨k, hk, .inr hs⟩
  have hall : (∃ e, mpsTechniques conv = .error e) ↔
      ∃ c ∈ conv, ∃ k ∈ blankKeys, ∃ s ∈ c.2, s.get? k = none ∨ ∃ v, s.get? k = some v ∧ 20 < v.length := by
    induction conv with
    | nil => exact ⟨fun ⟨e, he⟩ => (by cases he), fun ⟨c, hc, _⟩ => (by cases hc)⟩
    | cons c conv ih =>
      obtain ⟨t, seqs⟩ := c
      rw [mpsTechniques]
      simp only [List.mem_cons, exists_eq_or_imp]
      rw [← ih, ← hone t seqs]
      cases mpsTechnique t seqs with
      | error e => exact ⟨fun _ => .inl ⟨e, rfl⟩, fun _ => ⟨e, rfl⟩⟩
      | ok a =>
        cases mpsTechniques conv with
        | error e => exact ⟨fun _ => .inr ⟨e, rfl⟩, fun _ => ⟨e, rfl⟩⟩
        | ok b =>
          constructor
          · rintro ⟨e, he⟩; cases he
          · rintro (⟨e, he⟩ | ⟨e, he⟩) <;> cases he
  rw [← hall]
  unfold mpsLines
  cases conv with
  | nil => exact ⟨fun _ => .inl rfl, fun _ => ⟨_, rfl⟩⟩
  | cons c conv =>
    rw [List.getLast?_eq_some_getLast (List.cons_ne_nil c conv)]
    simp only [List.cons_ne_nil, false_or]
    cases mpsTechniques (c :: conv) with
    | error e => exact ⟨fun _ => ⟨e, rfl⟩, fun _ => ⟨e, rfl⟩⟩
    | ok b =>
      constructor
      · rintro ⟨e, he⟩; cases he
      · rintro ⟨e, he⟩; cases he

/-- C139 fails: no settings file of a converted procedure can be read. -/
theorem C139_file_violated (vmin vmax : Str) (conv : List (MtB.Technique × List (Dict Str Str))) (lines : List Str)
    (h : mpsLines vmin vmax conv = .ok lines) (hb : ∀ l ∈ lines, OneLine l) :
    readText 20 63 (mpsText lines) = .error .valueError := by
  obtain ⟨l, hl, he⟩ := mpsLines_ok vmin vmax conv lines h
  unfold readText
  rw [splitLines_mps lines hb]
  cases conv with
  | nil => cases hl
  | cons c conv =>
    have h8 : (lines ++ [[]])[8]? = some "Safety Limits :".toList := by
      rw [he]; rfl
    have h32 : (lines ++ [[]])[32]? = some ("Technique : ".toList ++ digits c.1.num) := by
      rw [he]
      rfl
    exact C138_colon_violated 20 63 _ 8 32 _ _ h8 (by decide) (by decide +kernel) (by decide +kernel) h32 (by decide)
      ((show "Technique".toList <+: "Technique : ".toList by decide +kernel).isInfix.trans (List.prefix_append _ _).isInfix)

/-- C139: the part of the file below its header can be read, for a procedure of a single technique that is not
repeated, and has the sequences of the technique.  Missing: the header, repeated techniques, several techniques. -/
theorem C139_body_partial (vmin vmax : Str) (t : MtB.Technique) (hn : t.num = 1) (hl : t.loops = false) (seqs : List (Dict Str Str))
    (lines : List Str) (h : mpsLines vmin vmax [(t, seqs)] = .ok lines) (hf : Fits 20 moduloBatKeys seqs)
    (hns : ∀ s ∈ seqs, s.get? "Ns".toList ≠ some []) (hT : ∀ l ∈ tableLines 20 moduloBatKeys seqs, ¬ "Technique".toList <:+: l)
    (hb : ∀ l ∈ lines, OneLine l) :
    ∃ d, readText 20 63 (mpsText (lines.drop 31)) = .ok d ∧ getSeqs d = .ok seqs := by
  rw [← keys_eq] at hf hT
  obtain ⟨l, _, he⟩ := mpsLines_ok vmin vmax [(t, seqs)] lines h
  have hd : lines.drop 31 = block blankKeys "1".toList "2".toList none seqs := by
    rw [he, show ∀ n, (mpsHeader n vmin vmax ++ ([(t, seqs)].map (fun c => block blankKeys (digits c.1.num) (digits (c.1.num + 1)) (times c.1) c.2)).flatten).drop 31
      = ([(t, seqs)].map (fun c => block blankKeys (digits c.1.num) (digits (c.1.num + 1)) (times c.1) c.2)).flatten from fun n => rfl]
    rw [List.map_singleton, List.flatten_singleton, hn]
    unfold times
    rw [hl]
    rfl
  have hreg : Regular 20 63 [.blank] "1".toList "Modulo Bat".toList blankKeys seqs [.blank] := by
    refine ⟨?_, ?_, ?_, ⟨by decide +kernel, trimmed_of _ (by decide +kernel)⟩, ?_, hf, .inl (by decide +kernel)⟩
    · intro x hx; rw [List.mem_singleton.mp hx]; trivial
    · intro x hx; rw [List.mem_singleton.mp hx]; trivial
    · decide +kernel
    · intro l hl
      rcases List.mem_cons.mp hl with e | e
      · rw [e]; decide +kernel
      · exact hT l e
  have hfile : fileLines 20 [.blank] "1".toList "Modulo Bat".toList blankKeys seqs [.blank] = lines.drop 31 ++ [[]] := by
    rw [hd]
    unfold fileLines block
    simp [HeadLine.text]
  have hone : ∀ l ∈ lines.drop 31 ++ [[]], OneLine l := by
    intro l hl
    rcases List.mem_append.mp hl with e | e
    · exact hb l (List.mem_of_mem_drop e)
    · rw [List.mem_singleton.mp e]; exact ⟨by simp, by simp⟩
  obtain ⟨d, s, ns, h1, h2, h3, h4⟩ := C138_sequences 20 63 [.blank] blankKeys seqs [.blank] hreg (by decide +kernel)
    (by rw [hfile]; exact hone)
  refine ⟨d, ?_, ?_⟩
  · unfold readText at h1 ⊢
    rw [splitLines_join _ (by unfold fileLines; simp) (by rw [hfile]; exact hone), hfile] at h1
    rw [splitLines_mps _ (fun l hl => hone l (List.mem_append_left _ hl))]
    exact h1
  · rw [h4, if_neg]
    intro e
    exact hns s (List.mem_of_getLast? h2) (by rw [h3, e])

/-! ### examples -/

/-- a sequence with the given number and otherwise empty fields -/
def seq (n : String) : Dict Str Str := blankKeys.map (fun k => (k, if k = "Ns".toList then n.toList else []))

/-- the techniques of the example of C24: a rest, a nested loop that is repeated three times, a rest -/
def sampleSteps : List MtB.Step := ["Rest", "Do 1", "Do 2", "Charge", "Loop 2", "AdvCycle", "Loop 1", "Rest"].map MtbPartition.mk

/-- the file of the example: four techniques, of which the third repeats the second -/
example : ∃ ts, MtB.partition sampleSteps = .ok ts ∧
    (mpsLines "0.00 V".toList "4.45 V".toList (ts.map (fun t => (t, [seq "0", seq "1"])))).map
      (fun ls => (headings ls, ls[2]?, ls.length)) =
      .ok (["1".toList, "2".toList, "3".toList, "4".toList], some "Number of linked techniques : 4".toList, 31 + 3 * 65 + 5) := by
  refine ⟨_, rfl, ?_⟩
  decide +kernel

/-- the sequences of the example fit their columns -/
theorem sample_seqs_fit : Fits 20 blankKeys [seq "0", seq "1"] := by
  have hkey : ∀ k ∈ blankKeys, k.length ≤ 20 ∧ (k.head?.all (fun c => !isWs c) && k.getLast?.all (fun c => !isWs c)) = true := by
    decide +kernel
  have hval : ∀ s ∈ [seq "0", seq "1"], ∀ kv ∈ s, kv.2.length ≤ 20 ∧
      (kv.2.head?.all (fun c => !isWs c) && kv.2.getLast?.all (fun c => !isWs c)) = true := by
    decide +kernel
  refine ⟨by decide, by decide +kernel, by decide +kernel, by simp, ?_, ?_, ?_⟩
  · intro s hs
    simp only [List.mem_cons, List.not_mem_nil, or_false] at hs
    rcases hs with rfl | rfl <;>
    · unfold HasKeys seq
      rw [List.map_map]
      exact List.map_id' blankKeys
  · exact fun k hk => ⟨(hkey k hk).1, trimmed_of k (hkey k hk).2⟩
  · exact fun s hs kv hkv => ⟨(hval s hs kv hkv).1, trimmed_of kv.2 (hval s hs kv hkv).2⟩

/-- a technique to which the partial theorem applies: its file exists and no line of it has a line break -/
example : (mpsLines "0.00 V".toList "4.45 V".toList
      [({ num := 1, steps := [], offset := 0, loops := false, numLoops := 0 }, [seq "0", seq "1"])]).toOption.any
        (fun lines => lines.all (fun l => !l.contains '\r' && !l.contains '\n')) = true ∧
    (∀ s ∈ [seq "0", seq "1"], s.get? "Ns".toList ≠ some []) ∧
    ∀ l ∈ tableLines 20 blankKeys [seq "0", seq "1"], ¬ "Technique".toList <:+: l := by
  refine ⟨by decide +kernel, by decide +kernel, by decide +kernel⟩

end Beep.Props.MpsFile
