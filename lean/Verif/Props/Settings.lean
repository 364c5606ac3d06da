import Verif.Proof.Settings
/-
C138: a settings file that is read and written again.
-/
namespace Beep.Props.Settings
open Beep Beep.Settings Beep.Text Beep.FixedWidth Beep.Spec.FixedWidth Beep.Spec.Settings
open Beep.Proof.Settings Beep.Props.FixedWidth

theorem rows_of_fits {w : Nat} {keys : List Str} {seqs : List (Dict Str Str)} (h : Fits w keys seqs) :
    seqsToRows w keys seqs = .ok (tableLines w keys seqs) := by
  cases hr : seqsToRows w keys seqs with
  | error e =>
    exfalso
    obtain ⟨k, hk, hbad⟩ := (C35_refused w keys seqs).mp ⟨e, hr⟩
    rcases hbad with hbad | ⟨s, hs, hbad | ⟨v, hv, hbad⟩⟩
    · have := (h.key k hk).1; omega
    · have := h.has s hs
      rw [Dict.get?_eq_none_iff] at hbad
      exact hbad (by rw [show Dict.keys s = keys from this]; exact hk)
    · have := (h.value s hs (k, v) (Dict.get?_some_mem hv)).1
      simp only at this
      omega
  | ok rows =>
    rw [(seqsToRows_ok w keys seqs rows hr).1]
    unfold tableLines rowText column
    simp only [List.map_cons, List.flatten_cons, List.map_map]
    rfl

theorem length_of_fits {w : Nat} {keys : List Str} {seqs : List (Dict Str Str)} :
    (tableLines w keys seqs).length = keys.length := by unfold tableLines; rw [List.length_map]

theorem technique_is_heading (n : Str) : containsSub "Technique".toList ("Technique : ".toList ++ n) = true := by
  rw [containsSub_iff]
  exact (show "Technique".toList <+: "Technique : ".toList by decide).isInfix.trans (List.prefix_append _ _).isInfix

theorem ordinary_no_heading (h : HeadLine) (ho : h.Ordinary) : ¬ "Technique".toList <:+: h.text := by
  cases h with
  | blank => decide
  | plain s => exact ho.2.2.1
  | field k v => exact ho.2.1

theorem entries_nodup {w len : Nat} {before : List HeadLine} {n ty : Str} {keys : List Str} {seqs : List (Dict Str Str)}
    {behind : List HeadLine} (h : Regular w len before n ty keys seqs behind) :
    ((entries 0 before ++ ("Technique_".toList ++ n, some n) :: entries (before.length + 2 + keys.length) behind).map
      Prod.fst).Nodup := by
  rw [List.map_append, List.map_cons, entries_keys, entries_keys]
  have hall := keyOf_inj _ (by
    intro s hs
    rcases List.mem_append.mp hs with hs | hs
    · exact (names_text _ _ h.ordinary_before s hs).1
    · exact (names_text _ _ h.ordinary_behind s hs).1) h.names_distinct
  rw [List.map_append] at hall
  have hT : ∀ nm ∈ names 0 before ++ names (before.length + 2 + keys.length) behind, keyOf nm ≠ "Technique_".toList ++ n := by
    intro nm hnm e
    cases nm with
    | line i =>
      have : 'T' ∈ keyOf (.line i) := e ▸ List.mem_append_left _ (by decide)
      rcases List.mem_append.mp this with h | h
      · exact absurd h (by decide)
      · exact digits_ne i 'T' (by decide) h
    | text s =>
      have hs : s = "Technique_".toList ++ n := e
      have : ¬ "Technique".toList <:+: s := by
        rcases List.mem_append.mp hnm with hs | hs
        · exact (names_text _ _ h.ordinary_before s hs).2
        · exact (names_text _ _ h.ordinary_behind s hs).2
      refine this (hs ▸ ?_)
      exact (show "Technique".toList <+: "Technique_".toList by decide).isInfix.trans (List.prefix_append _ _).isInfix
  have hp : ((names 0 before).map keyOf ++ ("Technique_".toList ++ n) :: (names (before.length + 2 + keys.length) behind).map keyOf).Perm
      (("Technique_".toList ++ n) :: ((names 0 before).map keyOf ++ (names (before.length + 2 + keys.length) behind).map keyOf)) :=
    List.perm_middle
  rw [hp.nodup_iff, List.nodup_cons]
  refine ⟨?_, hall⟩
  intro hm
  rw [← List.map_append] at hm
  obtain ⟨nm, hnm, e⟩ := List.mem_map.mp hm
  exact hT nm hnm e

/-- what is read from a regular file -/
theorem read_regular {w len : Nat} {before : List HeadLine} {n ty : Str} {keys : List Str} {seqs : List (Dict Str Str)}
    {behind : List HeadLine} (h : Regular w len before n ty keys seqs behind) :
    readLines w len (fileLines w before n ty keys seqs behind) =
      .ok { metadata := entries 0 before ++ ("Technique_".toList ++ n, some n) :: entries (before.length + 2 + keys.length) behind,
            techniques := [(n, { type := ty, steps := (List.range' 1 seqs.length).zip seqs })] } := by
  have hrows := rows_of_fits h.fits
  have hk : techniqueLines (fileLines w before n ty keys seqs behind) = [before.length] := by
    have := filter_one (containsSub "Technique".toList) [] (before.map HeadLine.text)
      (ty :: (tableLines w keys seqs ++ behind.map HeadLine.text)) ("Technique : ".toList ++ n)
      (by
        intro y hy
        obtain ⟨x, hx, rfl⟩ := List.mem_map.mp hy
        exact not_contains (ordinary_no_heading x (h.ordinary_before x hx)))
      (technique_is_heading n)
      (by
        intro y hy
        rw [← List.cons_append] at hy
        rcases List.mem_append.mp hy with hy | hy
        · exact not_contains (h.plain y hy)
        · obtain ⟨x, hx, rfl⟩ := List.mem_map.mp hy
          exact not_contains (ordinary_no_heading x (h.ordinary_behind x hx)))
    rw [List.length_map] at this
    exact this
  have hlen : (fileLines w before n ty keys seqs behind).length = before.length + 2 + keys.length + behind.length := by
    unfold fileLines
    simp only [List.length_append, List.length_map, List.length_cons, length_of_fits]
    omega
  have hkept := kept_eq len (fileLines w before n ty keys seqs behind) before.length (by rw [hlen]; omega)
  have hm1 : metaEntries (fileLines w before n ty keys seqs behind) (List.range' 0 before.length) = .ok (entries 0 before) :=
    metaEntries_segment [] before _ h.ordinary_before
  have hm2 : metaEntries (fileLines w before n ty keys seqs behind) [before.length] = .ok [("Technique_".toList ++ n, some n)] := by
    rw [metaEntries]
    have : (fileLines w before n ty keys seqs behind).getD before.length [] = "Technique : ".toList ++ n := by
      unfold fileLines
      simp [List.getD]
    rw [this, heading_entry _ n h.number.2]
    rfl
  have hm3 : metaEntries (fileLines w before n ty keys seqs behind)
      (List.range' (before.length + 1 + len) ((fileLines w before n ty keys seqs behind).length - (before.length + 1 + len))) =
      .ok (entries (before.length + 2 + keys.length) behind) := by
    rcases h.length with e | ⟨e, e'⟩
    · have := metaEntries_segment (before.map HeadLine.text ++ ("Technique : ".toList ++ n) :: ty :: tableLines w keys seqs) behind []
        h.ordinary_behind
      rw [List.append_nil] at this
      have el : (before.map HeadLine.text ++ ("Technique : ".toList ++ n) :: ty :: tableLines w keys seqs).length =
          before.length + 2 + keys.length := by
        simp only [List.length_append, List.length_map, List.length_cons, length_of_fits]; omega
      rw [el] at this
      rw [hlen, show before.length + 1 + len = before.length + 2 + keys.length by omega, Nat.add_sub_cancel_left]
      rw [← this]
      unfold fileLines
      simp only [List.append_assoc, List.cons_append]
    · rw [hlen, e, List.length_nil, show before.length + 2 + keys.length + 0 - (before.length + 1 + len) = 0 by omega]
      rfl
  have hnd := entries_nodup h
  have hme : metaEntries (fileLines w before n ty keys seqs behind) (keptLines len (fileLines w before n ty keys seqs behind) before.length) =
      .ok (entries 0 before ++ ("Technique_".toList ++ n, some n) :: entries (before.length + 2 + keys.length) behind) := by
    rw [hkept]
    have e : List.range' 0 (before.length + 1) = List.range' 0 before.length ++ [before.length] := by
      rw [List.range'_concat]; simp
    rw [e, List.append_assoc]
    exact metaEntries_append _ _ _ _ _ hm1 (metaEntries_append _ _ _ _ _ hm2 hm3)
  have hlt : (tableLines w keys seqs).length + 1 = len ∨ (behind.map HeadLine.text = [] ∧ (tableLines w keys seqs).length + 1 ≤ len) := by
    rw [length_of_fits]
    rcases h.length with e | ⟨e, e'⟩
    · exact .inl e
    · exact .inr ⟨by rw [e]; rfl, e'⟩
  have ht := readTechnique_eq w len h.fits.width (before.map HeadLine.text) n ty h.number.1 h.number.2 keys h.fits.some_key
    h.fits.distinct seqs h.fits.has (fun k hk => (h.fits.key k hk).2) (fun s hs kv hkv => (h.fits.value s hs kv hkv).2)
    (tableLines w keys seqs) hrows (behind.map HeadLine.text) hlt [] rfl
  rw [List.length_map] at ht
  have ht' : readTechnique w len (fileLines w before n ty keys seqs behind) [] before.length =
      .ok [(n, { type := ty, steps := (List.range' 1 seqs.length).zip seqs })] := ht
  unfold readLines
  simp only [hk, List.getLast?_singleton, hme, readTechniques, ht']
  have := ofPairs_eq _ hnd
  exact congrArg (fun m => (Except.ok { metadata := m, techniques := [(n, { type := ty, steps := (List.range' 1 seqs.length).zip seqs })] } :
    Except Err Doc)) this

theorem write_regular {w len : Nat} {before : List HeadLine} {n ty : Str} {keys : List Str} {seqs : List (Dict Str Str)}
    {behind : List HeadLine} (h : Regular w len before n ty keys seqs behind) (d : Doc)
    (hd : readLines w len (fileLines w before n ty keys seqs behind) = .ok d) :
    writeLines w d = .ok (fileLines w before n ty keys seqs behind) := by
  rw [read_regular h] at hd
  injection hd with hd
  subst hd
  have hnd := entries_nodup h
  obtain ⟨m, hm⟩ : ∃ m, m = entries 0 before ++ ("Technique_".toList ++ n, some n) :: entries (before.length + 2 + keys.length) behind :=
    ⟨_, rfl⟩
  rw [← hm] at hnd
  have hget : ∀ e ∈ m, Dict.get? m e.1 = some e.2 := fun e he => Dict.get?_of_mem (d := m) hnd he
  unfold writeLines
  simp only
  rw [← hm]
  obtain ⟨d, hd⟩ : ∃ d : Data, d = { metadata := some m, techniques := some [(n, { type := ty, steps := (List.range' 1 seqs.length).zip seqs })] } :=
    ⟨_, rfl⟩
  rw [← hd]
  have hdm : d.metadata = some m := by rw [hd]
  have hb := blocks_head w behind h.ordinary_behind (before.length + 2 + keys.length) [] d m hdm
    (fun e he => hget e (by rw [hm]; simp [he])) [] rfl
  rw [List.append_nil, List.append_nil] at hb
  have hrow : techniqueRows w n d.techniques = .ok (ty :: tableLines w keys seqs) := by
    rw [hd]
    simp only [techniqueRows, Dict.get?, if_true]
    obtain ⟨s, ss, hs⟩ := List.exists_cons_of_ne_nil h.fits.some_seq
    have h1 : Dict.get? ((List.range' 1 seqs.length).zip seqs) 1 = some s := by
      rw [hs, List.length_cons, List.range'_succ]
      rfl
    have h2 : ((List.range' 1 seqs.length).zip seqs).map Prod.snd = seqs := List.map_snd_zip (by simp)
    have h3 : Dict.keys s = keys := h.fits.has s (by rw [hs]; exact List.mem_cons_self ..)
    rw [h1]
    simp only [h2, h3]
    rw [settingsRows_eq w keys seqs _ (rows_of_fits h.fits)]
    rfl
  have ht : blocks w (("Technique_".toList ++ n) :: (entries (before.length + 2 + keys.length) behind).map Prod.fst) d =
      .ok (("Technique : ".toList ++ n) :: ty :: (tableLines w keys seqs ++ behind.map HeadLine.text)) := by
    rw [blocks]
    have hc : containsSub "Technique_".toList ("Technique_".toList ++ n) = true := by
      rw [containsSub_iff]; exact (List.prefix_append _ _).isInfix
    have hn : Dict.get? m ("Technique_".toList ++ n) = some (some n) := hget ("Technique_".toList ++ n, some n) (by rw [hm]; simp)
    have hsp : (splitC '_' ("Technique_".toList ++ n)).head?.getD [] = "Technique".toList := by
      rw [show "Technique_".toList ++ n = "Technique".toList ++ '_' :: n from rfl, splitC_append '_' _ _ (by decide)]
      rfl
    simp only [hdm, hn, hc, if_true, hrow, hb, hsp]
    rfl
  have := blocks_head w before h.ordinary_before 0 _ d m hdm (fun e he => hget e (by rw [hm]; simp [he])) _ ht
  rw [show Dict.keys m = (entries 0 before).map Prod.fst ++
    (("Technique_".toList ++ n) :: (entries (before.length + 2 + keys.length) behind).map Prod.fst) by
      rw [hm]; unfold Dict.keys; rw [List.map_append, List.map_cons]]
  exact this

/-- C138: a file with one technique is written again as it was read.  Missing: files with more than one technique,
with two lines of the same name, with a colon that no blanks surround, or with the value "blank" or one that is
a path into the document. -/
theorem C138_round_trip_partial (w len : Nat) (before : List HeadLine) (n ty : Str) (keys : List Str) (seqs : List (Dict Str Str))
    (behind : List HeadLine) (h : Regular w len before n ty keys seqs behind)
    (hb : ∀ l ∈ fileLines w before n ty keys seqs behind, OneLine l ∧ ∀ c ∈ l, c.toNat < 256) (text : Str)
    (ht : text = join "\r\n".toList (fileLines w before n ty keys seqs behind)) :
    ∃ d, readText w len text = .ok d ∧ writeText w d = .ok text := by
  have hr := read_regular h
  refine ⟨{ metadata := entries 0 before ++ ("Technique_".toList ++ n, some n) :: entries (before.length + 2 + keys.length) behind,
            techniques := [(n, { type := ty, steps := (List.range' 1 seqs.length).zip seqs })] }, ?_, ?_⟩
  · unfold readText
    rw [ht, splitLines_join _ (by unfold fileLines; simp) (fun l hl => (hb l hl).1)]
    exact hr
  · unfold writeText
    rw [write_regular h _ hr]
    change latin1 (join "\r\n".toList (fileLines w before n ty keys seqs behind)) = .ok text
    rw [← ht]
    unfold latin1
    rw [if_pos]
    rw [List.all_eq_true]
    intro c hc
    rw [ht] at hc
    rcases mem_join _ _ c hc with hc | ⟨l, hl, hc⟩
    · have : ∀ c ∈ "\r\n".toList, c.toNat < 256 := by decide
      exact decide_eq_true (this c hc)
    · exact decide_eq_true ((hb l hl).2 c hc)

theorem getSeqs_one (m : Dict Str (Option Str)) (t : Technique) (ht : t.type = "Modulo Bat".toList) (seqs : List (Dict Str Str))
    (hne : seqs ≠ []) (hs : t.steps.map Prod.snd = seqs) (l : Dict Str Str) (ns : Str) (hl : seqs.getLast? = some l)
    (hn : l.get? "Ns".toList = some ns) :
    getSeqs { metadata := m, techniques := [("1".toList, t)] } = .ok (if ns = [] then seqs.dropLast else seqs) := by
  have hg : Dict.get? [("1".toList, t)] "1".toList = some t := if_pos rfl
  have h0 : t.steps ≠ [] := by
    intro e
    rw [e] at hs
    exact hne hs.symm
  unfold getSeqs
  rw [if_neg (by exact not_not_intro rfl)]
  simp only [hg]
  rw [if_neg (not_not_intro ht), if_neg h0, hs]
  simp only [hl, hn]

/-- C138: the sequences of the only technique of a file, a Modulo Bat technique with number 1, are those of its
table; an empty last column, whose sequence has no number, is left out. -/
theorem C138_sequences (w len : Nat) (before : List HeadLine) (keys : List Str) (seqs : List (Dict Str Str))
    (behind : List HeadLine) (h : Regular w len before "1".toList "Modulo Bat".toList keys seqs behind) (hns : "Ns".toList ∈ keys)
    (hb : ∀ l ∈ fileLines w before "1".toList "Modulo Bat".toList keys seqs behind, OneLine l) :
    ∃ d l ns, readText w len (join "\r\n".toList (fileLines w before "1".toList "Modulo Bat".toList keys seqs behind)) = .ok d ∧
      seqs.getLast? = some l ∧ l.get? "Ns".toList = some ns ∧
      getSeqs d = .ok (if ns = [] then seqs.dropLast else seqs) := by
  have hr := read_regular h
  have hl : seqs.getLast? = some (seqs.getLast h.fits.some_seq) := List.getLast?_eq_some_getLast h.fits.some_seq
  have hmem := List.getLast_mem h.fits.some_seq
  obtain ⟨ns, hn⟩ : ∃ ns, (seqs.getLast h.fits.some_seq).get? "Ns".toList = some ns := by
    cases hg : (seqs.getLast h.fits.some_seq).get? "Ns".toList with
    | some ns => exact ⟨ns, rfl⟩
    | none =>
      rw [Dict.get?_eq_none_iff] at hg
      exact absurd hns (by rw [← show Dict.keys (seqs.getLast h.fits.some_seq) = keys from h.fits.has _ hmem]; exact hg)
  refine ⟨{ metadata := entries 0 before ++ ("Technique_".toList ++ "1".toList, some "1".toList) :: entries (before.length + 2 + keys.length) behind,
            techniques := [("1".toList, { type := "Modulo Bat".toList, steps := (List.range' 1 seqs.length).zip seqs })] },
    seqs.getLast h.fits.some_seq, ns, ?_, hl, hn, ?_⟩
  · unfold readText
    rw [splitLines_join _ (by unfold fileLines; simp) hb]
    exact hr
  · exact getSeqs_one _ _ rfl seqs h.fits.some_seq (List.map_snd_zip (by simp)) _ ns hl hn

theorem metaEntry_error (i : Nat) (l : Str) (e : Err) (h : metaEntry i l = .error e) : e = .valueError := by
  unfold metaEntry at h
  split at h
  · split at h
    · cases h
    · split at h
      · cases h
      · cases h; rfl
  · split at h <;> cases h

theorem metaEntries_refused (ls : List Str) (is : List Nat) (i : Nat) (hi : i ∈ is) (e : Err)
    (h : metaEntry i (ls.getD i []) = .error e) : metaEntries ls is = .error .valueError := by
  induction is with
  | nil => cases hi
  | cons j js ih =>
    rw [metaEntries]
    cases hj : metaEntry j (ls.getD j []) with
    | error e' => rw [metaEntry_error _ _ _ hj]; rfl
    | ok x =>
      rcases List.mem_cons.mp hi with rfl | hi
      · rw [hj] at h; cases h
      · rw [ih hi]; rfl

theorem last_le {l : List Nat} (h : l.Pairwise (· < ·)) (j : Nat) (hj : j ∈ l) : ∃ a, l.getLast? = some a ∧ j ≤ a := by
  induction l generalizing j with
  | nil => cases hj
  | cons x xs ih =>
    rw [List.pairwise_cons] at h
    cases xs with
    | nil =>
      rcases List.mem_cons.mp hj with rfl | hj
      · exact ⟨j, rfl, le_refl _⟩
      · cases hj
    | cons y ys =>
      rw [List.getLast?_cons_cons]
      rcases List.mem_cons.mp hj with rfl | hj
      · obtain ⟨a, ha, hle⟩ := ih h.2 y (List.mem_cons_self ..)
        exact ⟨a, ha, (h.1 y (List.mem_cons_self ..)).le.trans hle⟩
      · exact ih h.2 j hj

/-- C138 fails: a file with a colon that no blanks surround, in a line above a heading, is refused. -/
theorem C138_colon_violated (w len : Nat) (ls : List Str) (i j : Nat) (l t : Str) (hi : ls[i]? = some l) (hc : ':' ∈ l)
    (hs : ¬ " : ".toList <:+: l) (hT : ¬ "Technique".toList <:+: l) (hj : ls[j]? = some t) (hij : i < j)
    (ht : "Technique".toList <:+: t) : readLines w len ls = .error .valueError := by
  have hjm : j ∈ techniqueLines ls := by
    unfold techniqueLines
    rw [List.mem_filter, List.mem_range]
    refine ⟨(List.getElem?_eq_some_iff.mp hj).1, ?_⟩
    rw [List.getD, hj, containsSub_iff]
    exact ht
  have hp : (techniqueLines ls).Pairwise (· < ·) := List.Pairwise.filter _ List.pairwise_lt_range
  obtain ⟨a, ha, hle⟩ := last_le hp j hjm
  have hkept : i ∈ keptLines len ls a := by
    unfold keptLines
    rw [List.mem_filter, List.mem_range]
    refine ⟨(List.getElem?_eq_some_iff.mp hi).1, ?_⟩
    simp only [Bool.not_eq_true', Bool.and_eq_false_iff, decide_eq_false_iff_not]
    left; omega
  have hbad : metaEntry i (ls.getD i []) = .error .valueError := by
    rw [List.getD, hi]
    obtain ⟨x, hx⟩ := cut_none l hs
    unfold metaEntry
    rw [Option.getD_some, if_pos hc, if_neg (by rw [not_contains hT]; simp), hx]
  unfold readLines
  simp only [ha]
  rw [metaEntries_refused ls _ i hkept _ hbad]
  rfl

/-! ### examples -/

/-- a text of the lines -/
def text (ls : List String) : Str := join "\r\n".toList (ls.map String.toList)

/-- reading a text and writing it again, for techniques of three lines in columns of 20 characters -/
def again (t : Str) : Except Err Str := do writeText 20 (← readText 20 3 t)

/-- the table of the examples -/
def row1 : String := "Ns                  0                   1                   "
/-- the table of the examples -/
def row2 : String := "ctrl_type           Rest                CC                  "

/-- a file that is written as it was read -/
example : again (text ["BT-LAB SETTING FILE", "", "Device : BCS-805", " at x = 0.000", "Technique : 1", "Modulo Bat", row1, row2, ""]) =
    .ok (text ["BT-LAB SETTING FILE", "", "Device : BCS-805", " at x = 0.000", "Technique : 1", "Modulo Bat", row1, row2, ""]) := by
  decide +kernel

/-- C138 fails: of two lines with the same name only the last value is kept. -/
theorem C138_repeated_violated :
    again (text ["Comments : a", "Device : BCS-805", "Comments : b", "Technique : 1", "Modulo Bat", row1, row2]) =
      .ok (text ["Comments : b", "Device : BCS-805", "Technique : 1", "Modulo Bat", row1, row2]) := by
  decide +kernel

/-- C138 fails: in a file with two techniques the table of the first one is written twice. -/
theorem C138_techniques_violated :
    again (text ["Device : BCS-805", "Technique : 1", "Modulo Bat", row1, row2, "Technique : 2", "Modulo Bat", row1, row2]) =
      .ok (text ["Device : BCS-805", "Technique : 1", "Modulo Bat", row1, row2, "Modulo Bat", row1, row2,
        "Technique : 2", "Modulo Bat", row1, row2]) := by
  decide +kernel

/-- C138 fails: a file with the comment "Metadata" is read but cannot be written. -/
theorem C138_path_violated :
    again (text ["Comments : Metadata", "Technique : 1", "Modulo Bat", row1, row2]) = .error .keyError := by
  decide +kernel

/-- C138 fails: the comment "blank" is lost. -/
theorem C138_blank_violated :
    again (text ["Comments : blank", "Technique : 1", "Modulo Bat", row1, row2]) = .ok (text ["", "Technique : 1", "Modulo Bat", row1, row2]) := by
  decide +kernel

/-- the lines of the example -/
def sampleBefore : List HeadLine :=
  [.plain "BT-LAB SETTING FILE".toList, .blank, .field "Device".toList "BCS-805".toList, .plain " at x = 0.000".toList]
/-- the sequences of the example -/
def sampleSeqs : List (Dict Str Str) :=
  [[("Ns".toList, "0".toList), ("ctrl_type".toList, "Rest".toList)], [("Ns".toList, "1".toList), ("ctrl_type".toList, "CC".toList)]]
/-- the keys of the example -/
def sampleKeys : List Str := ["Ns".toList, "ctrl_type".toList]

theorem trimmed_of (s : Str) (h : (s.head?.all (fun c => !isWs c) && s.getLast?.all (fun c => !isWs c)) = true) : Trimmed s := by
  rw [Bool.and_eq_true, Option.all_eq_true, Option.all_eq_true] at h
  exact ⟨fun c hc => by simpa using h.1 c hc, fun c hc => by simpa using h.2 c hc⟩

theorem sample_fits : Fits 20 sampleKeys sampleSeqs := by
  refine ⟨by decide, by decide +kernel, by decide +kernel, by decide +kernel, ?_, ?_, ?_⟩
  · intro s hs
    simp only [sampleSeqs, List.mem_cons, List.not_mem_nil, or_false] at hs
    rcases hs with rfl | rfl <;> rfl
  · intro k hk
    simp only [sampleKeys, List.mem_cons, List.not_mem_nil, or_false] at hk
    rcases hk with rfl | rfl <;> exact ⟨by decide +kernel, trimmed_of _ (by decide +kernel)⟩
  · intro s hs kv hkv
    simp only [sampleSeqs, List.mem_cons, List.not_mem_nil, or_false] at hs
    rcases hs with rfl | rfl <;> simp only [List.mem_cons, List.not_mem_nil, or_false] at hkv <;>
      rcases hkv with rfl | rfl <;> exact ⟨by decide +kernel, trimmed_of _ (by decide +kernel)⟩

/-- a file to which the theorems apply -/
theorem sample_regular : Regular 20 3 sampleBefore "1".toList "Modulo Bat".toList sampleKeys sampleSeqs [.blank] := by
  refine ⟨?_, ?_, by decide +kernel, ⟨by decide +kernel, trimmed_of _ (by decide +kernel)⟩, by decide +kernel, sample_fits, .inl rfl⟩
  · intro h hh
    simp only [sampleBefore, List.mem_cons, List.not_mem_nil, or_false] at hh
    rcases hh with rfl | rfl | rfl | rfl
    · exact ⟨by decide +kernel, by decide +kernel, by decide +kernel, by decide +kernel⟩
    · trivial
    · exact ⟨by decide +kernel, by decide +kernel, by decide +kernel, by decide +kernel, by decide +kernel⟩
    · exact ⟨by decide +kernel, by decide +kernel, by decide +kernel, by decide +kernel⟩
  · intro h hh
    simp only [List.mem_cons, List.not_mem_nil, or_false] at hh
    subst hh
    trivial

example : ∀ l ∈ fileLines 20 sampleBefore "1".toList "Modulo Bat".toList sampleKeys sampleSeqs [.blank],
    OneLine l ∧ ∀ c ∈ l, c.toNat < 256 := by unfold OneLine; decide +kernel

/-- its text is that of the file above -/
example : join "\r\n".toList (fileLines 20 sampleBefore "1".toList "Modulo Bat".toList sampleKeys sampleSeqs [.blank]) =
    text ["BT-LAB SETTING FILE", "", "Device : BCS-805", " at x = 0.000", "Technique : 1", "Modulo Bat", row1, row2, ""] := by
  decide +kernel

/-- a file that is refused: the safety limits have a colon without a blank behind it -/
example : readText 20 3 (text ["Safety Limits :", "Technique : 1", "Modulo Bat", row1, row2]) = .error .valueError := by
  decide +kernel

end Beep.Props.Settings
