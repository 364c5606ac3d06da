import Verif.Proof.Novonix
/-
C146: the table of a Novonix file.
C147: the metadata of a Novonix file.
-/
namespace Beep.Props.Novonix
open Beep Beep.Novonix Beep.Spec.Novonix

/-! ### C146 -/

/-- If the first line with the column names is among the first 499 lines and no line before it is
blank, its fields are the columns, and the rows are the fields of the lines below it, without blank ones. -/
theorem C146_table_partial {lines before after : List Str} {header : Str} (h : FirstHeader lines before header after)
    (hl : before.length < 499) (hb : ∀ l ∈ before, ¬IsBlank l) (hline : ∀ l ∈ lines, IsLine l) :
    ∃ m t kept, read lines = .ok (m, t) ∧ Fields header t.headers ∧ WithoutBlanks after kept ∧
      List.Forall₂ Fields kept t.rows := by
  obtain ⟨m, hm⟩ := read_eq lines before header after h hl
  have hf : before.filter (fun l => !blank l) = before := by
    rw [List.filter_eq_self]
    intro l hl
    have := hb l hl
    rw [← blank_iff] at this
    simpa using this
  rw [hf, List.drop_left, List.map_cons] at hm
  have hall : ∀ l ∈ header :: after, Fields l (Text.splitC ',' (text l)) := fun l hl =>
    fields_of l (hline l (by rw [h.1]; exact List.mem_append_right _ hl))
  refine ⟨m, _, after.filter (fun l => !blank l), hm, hall header (List.mem_cons_self ..), filter_withoutBlanks after, ?_⟩
  · have hsub : ∀ l ∈ after.filter (fun l => !blank l), Fields l (Text.splitC ',' (text l)) := fun l hl =>
      hall l (List.mem_cons_of_mem _ (List.mem_filter.mp hl).1)
    show List.Forall₂ Fields _ (List.map (fun l => Text.splitC ',' (text l)) (after.filter (fun l => !blank l)))
    generalize after.filter (fun l => !blank l) = k at hsub
    induction k with
    | nil => exact .nil
    | cons l k ih => exact .cons (hsub l (List.mem_cons_self ..)) (ih (fun l hl => hsub l (List.mem_cons_of_mem _ hl)))

/-- A file whose first 499 lines do not name the columns is refused. -/
theorem C146_refused {lines : List Str} (h : ∀ l ∈ lines.take 499, ¬IsHeader l) : read lines = .error .keyError := by
  unfold Novonix.read
  rw [scan_far lines 1 false false start (by simpa using h) (by omega)]

/-- So a file with its column names in line 500 is refused, although 500 lines are said to be searched. -/
theorem C146_line500_violated {lines before after : List Str} {header : Str} (h : FirstHeader lines before header after)
    (hl : before.length = 499) : read lines = .error .keyError := by
  apply C146_refused
  obtain ⟨rfl, h1, _⟩ := h
  rw [← hl, List.take_left]
  exact h1

/-- Every blank line above the column names moves the columns down by one line: with one blank line, the
first row of data that is not blank gives the names. -/
theorem C146_blank_violated {lines before after : List Str} {header : Str} (h : FirstHeader lines before header after)
    (hl : before.length < 499) (hline : ∀ l ∈ lines, IsLine l) {x y blankLine row : _} {z rest : List Str}
    (hbefore : before = x ++ blankLine :: y) (hxy : ∀ l ∈ x ++ y, ¬IsBlank l) (hbl : IsBlank blankLine)
    (hafter : after = z ++ row :: rest) (hz : ∀ l ∈ z, IsBlank l) (hrow : ¬IsBlank row) :
    ∃ m t, read lines = .ok (m, t) ∧ Fields row t.headers := by
  obtain ⟨m, hm⟩ := read_eq lines before header after h hl
  have keep : ∀ l : List Str, (∀ a ∈ l, ¬IsBlank a) → l.filter (fun l => !blank l) = l := by
    intro l hl
    rw [List.filter_eq_self]
    intro a ha
    have := hl a ha
    rw [← blank_iff] at this
    simpa using this
  have e1 : before.filter (fun l => !blank l) = x ++ y := by
    rw [hbefore, List.filter_append, List.filter_cons, if_neg (by rw [(blank_iff _).mpr hbl]; simp),
      keep x (fun a ha => hxy a (List.mem_append_left _ ha)), keep y (fun a ha => hxy a (List.mem_append_right _ ha))]
  have e2 : after.filter (fun l => !blank l) = row :: rest.filter (fun l => !blank l) := by
    rw [hafter, List.filter_append, List.filter_cons, if_pos (by
      rw [← blank_iff] at hrow; simpa using hrow), List.filter_eq_nil_iff.mpr (by
      intro a ha; rw [(blank_iff _).mpr (hz a ha)]; simp)]
    rfl
  have e3 : before.length = (x ++ y ++ [header]).length := by rw [hbefore]; simp
  rw [e1, e2, e3, show x ++ y ++ header :: row :: rest.filter (fun l => !blank l) =
    (x ++ y ++ [header]) ++ row :: rest.filter (fun l => !blank l) by simp, List.drop_left, List.map_cons] at hm
  refine ⟨m, _, hm, fields_of row (hline row ?_)⟩
  rw [h.1, hafter]; simp

/-- a small file -/
def small : List Str :=
  ["[Summary]\n".toList, "Channel: 7\n".toList, "Description: Cell, second try\n".toList, "Started: 2021-01-01 10:30:00\n".toList,
   "Protocol: rate: test\n".toList, "Mass (g): \n".toList, "[End Summary]\n".toList,
   "Cycle Number,Run Time (h)\n".toList, "0,0.5\n".toList, "\n".toList, "1,1.5\n".toList]

/-- what is read of a file: entries and table -/
def result (lines : List Str) (keys : List String) : Except Err (List (Option (Option String)) × List String × List (List String)) :=
  match read lines with
  | .error e => .error e
  | .ok (m, t) => .ok (keys.map (fun k => (m.get? k.toList).map (Option.map String.ofList)), t.headers.map String.ofList,
      t.rows.map (fun r => r.map String.ofList))

example : result small ["channel", "cell", "description", "protocol", "mass"] =
    .ok ([some (some "7"), some (some "Cell, second try"), some none, some (some "test"), some none],
      ["Cycle Number", "Run Time (h)"], [["0", "0.5"], ["1", "1.5"]]) := by decide +kernel

/-- the same file with a blank line above the column names: the first record is lost -/
example : result (small.take 7 ++ "\n".toList :: small.drop 7) [] = .ok ([], ["0", "0.5"], [["1", "1.5"]]) := by decide +kernel

example : FirstHeader small (small.take 7) "Cycle Number,Run Time (h)\n".toList (small.drop 8) := by
  refine ⟨by decide +kernel, ?_, (header_iff _).mp (by decide +kernel)⟩
  have : ∀ l ∈ small.take 7, Beep.containsSub "Cycle Number".toList l = false := by decide +kernel
  intro l hl h
  rw [← header_iff, this l hl] at h
  cases h

/-! ### C147 -/

/-- An entry of the summary that is written as `label: value` on an ordinary line, whose value has no
colon and whose label no later line has, is the value. -/
theorem C147_value_partial {lines a b : List Str} {l label val key : Str} {m : Dict Str (Option Str)} {t : Table}
    (h : read lines = .ok (m, t)) (hs : Section lines (a ++ l :: b)) (he : EntryLine l label val ['\n']) (hv : ':' ∉ val)
    (hk : LabelOf l key) (hb : ∀ l' ∈ b, Ordinary l' ∧ ¬LabelOf l' key) : m.get? key = some (some val) := by
  obtain ⟨first, _, _, rfl⟩ := read_section lines _ m t h hs
  rw [List.foldl_append, List.foldl_cons, fold_other b key hb,
    update_entry _ l val _ key [] (entry_afterColon he hv) hk (.inl ⟨rfl, rfl⟩), Dict.get?_set_self, List.append_nil]

/-- Of a value with a colon only the part after the last colon is kept. -/
theorem C147_colon_violated {lines a b : List Str} {l label val u v key : Str} {n : Nat} {m : Dict Str (Option Str)} {t : Table}
    (h : read lines = .ok (m, t)) (hs : Section lines (a ++ l :: b)) (he : EntryLine l label val ['\n'])
    (hv : val = u ++ ':' :: (List.replicate n ' ' ++ v)) (hp : Plain v) (ht : Trimmed v)
    (hk : LabelOf l key) (hb : ∀ l' ∈ b, Ordinary l' ∧ ¬LabelOf l' key) :
    m.get? key = some (some v) ∧ v ≠ val := by
  have hc : AfterColon l v ['\n'] := by
    obtain ⟨k, rfl, h1, h2, h3⟩ := he
    refine ⟨label ++ ':' :: (List.replicate k ' ' ++ u), n, by rw [hv]; simp, ?_, hp, ht⟩
    intro c hc
    rcases List.mem_append.mp hc with hc | hc
    · exact .inl (h1 c hc)
    · rcases List.mem_cons.mp hc with rfl | hc
      · exact .inr rfl
      · rcases List.mem_append.mp hc with hc | hc
        · left; rw [(List.mem_replicate.mp hc).2]; unfold PlainChar; decide
        · exact h2 c (by rw [hv]; simp [hc])
  obtain ⟨first, _, _, rfl⟩ := read_section lines _ m t h hs
  refine ⟨?_, ?_⟩
  · rw [List.foldl_append, List.foldl_cons, fold_other b key hb,
      update_entry _ l v _ key [] hc hk (.inl ⟨rfl, rfl⟩), Dict.get?_set_self, List.append_nil]
  · intro e
    have : ':' ∈ v := by rw [e, hv]; simp
    exact (hp _ this).2.2.2.2 rfl

/-- In a file with the line ends of Windows, every such entry has the two characters `\r` at its end. -/
theorem C147_crlf_violated {lines a b : List Str} {l label val key : Str} {m : Dict Str (Option Str)} {t : Table}
    (h : read lines = .ok (m, t)) (hs : Section lines (a ++ l :: b)) (he : EntryLine l label val ['\r', '\n']) (hv : ':' ∉ val)
    (hk : LabelOf l key)
    (hb : ∀ l' ∈ b, ∃ u, l' = u ++ ['\r', '\n'] ∧ (∀ c ∈ u, PlainChar c ∨ c = ':') ∧ ¬LabelOf l' key) :
    m.get? key = some (some (val ++ ['\\', 'r'])) := by
  obtain ⟨first, _, _, rfl⟩ := read_section lines _ m t h hs
  have hfold : ∀ (b : List Str) (m : Dict Str (Option Str)),
      (∀ l' ∈ b, ∃ u, l' = u ++ ['\r', '\n'] ∧ (∀ c ∈ u, PlainChar c ∨ c = ':') ∧ ¬LabelOf l' key) →
      (b.foldl update m).get? key = m.get? key := by
    intro b
    induction b with
    | nil => intro m _; rfl
    | cons l' b ih =>
      intro m hb
      rw [List.foldl_cons, ih _ (fun l hl => hb l (List.mem_cons_of_mem _ hl))]
      obtain ⟨u, rfl, hu, hn⟩ := hb l' (List.mem_cons_self ..)
      unfold update
      cases hx : entryOf (repr (u ++ ['\r', '\n'])) with
      | none => rfl
      | some k =>
        simp only
        rw [Dict.get?_set_ne]
        rintro rfl
        exact hn ((labelOf_repr u _ hu (.inr rfl) _).mp ((entryOf_iff _ _).mp hx))
  rw [List.foldl_append, List.foldl_cons, hfold b _ hb,
    update_entry _ l val _ key _ (entry_afterColon he hv) hk (.inr ⟨rfl, rfl⟩), Dict.get?_set_self]

/-- An entry that ends in a byte beyond ASCII (a degree sign, say) ends in the four characters `\xNN` instead, where NN
is the byte in hexadecimal digits. -/
theorem C147_bytes_violated {lines a b : List Str} {l label val key : Str} {c x y : Char} {m : Dict Str (Option Str)} {t : Table}
    (h : read lines = .ok (m, t)) (hs : Section lines (a ++ l :: b)) (he : EntryLine l label val [c, '\n']) (hv : ':' ∉ val)
    (hc : 127 ≤ c.toNat) (hx : "0123456789abcdef".toList[c.toNat / 16]? = some x)
    (hy : "0123456789abcdef".toList[c.toNat % 16]? = some y) (hk : LabelOf l key)
    (hb : ∀ l' ∈ b, Ordinary l' ∧ ¬LabelOf l' key) :
    m.get? key = some (some (val ++ ['\\', 'x', x, y])) := by
  obtain ⟨first, _, _, rfl⟩ := read_section lines _ m t h hs
  rw [List.foldl_append, List.foldl_cons, fold_other b key hb,
    update_byte _ l val key c x y (entry_afterColon he hv) hk hc hx hy, Dict.get?_set_self]

/-- An entry that no line of the summary names is `None`. -/
theorem C147_absent {lines body : List Str} {key : Str} {m : Dict Str (Option Str)} {t : Table}
    (h : read lines = .ok (m, t)) (hs : Section lines body) (hkey : key ∈ labels.map (fun p => p.2.toList))
    (hb : ∀ l ∈ body, Ordinary l ∧ ¬LabelOf l key) (hf : ∀ l ∈ lines, "[Summary]".toList <:+: l → Ordinary l ∧ ¬LabelOf l key) :
    m.get? key = some none := by
  obtain ⟨first, h1, h2, rfl⟩ := read_section lines _ m t h hs
  rw [fold_other body key hb, update_other start first key (hf first h1 h2).1 (hf first h1 h2).2]
  exact (by decide +kernel : ∀ k ∈ labels.map (fun p => p.2.toList), start.get? k = some none) key hkey

/-- A description that mentions a cell is taken for the name of the cell, and the cell has no description. -/
theorem C147_description_violated {lines a b : List Str} {l val : Str} {m : Dict Str (Option Str)} {t : Table}
    (h : read lines = .ok (m, t)) (hs : Section lines (a ++ l :: b)) (he : EntryLine l "Description".toList val ['\n']) (hv : ':' ∉ val)
    (hcell : "Cell".toList <:+: val) (hch : ¬"Channel".toList <:+: l)
    (hb : ∀ l' ∈ b, ¬LabelOf l' "cell".toList) (hab : ∀ l' ∈ a ++ b, Ordinary l' ∧ ¬LabelOf l' "description".toList)
    (hf : ∀ l ∈ lines, "[Summary]".toList <:+: l → Ordinary l ∧ ¬LabelOf l "description".toList) :
    m.get? "cell".toList = some (some val) ∧ m.get? "description".toList = some none := by
  have hin : "Cell".toList <:+: l := by
    obtain ⟨n, rfl, _⟩ := he
    exact hcell.trans ⟨"Description".toList ++ ':' :: List.replicate n ' ', ['\n'], by simp⟩
  have hk : LabelOf l "cell".toList := by
    refine ⟨[("Channel", "channel")], ("Cell", "cell"), labels.drop 2, rfl, rfl, hin, ?_⟩
    intro q hq
    rw [List.mem_singleton] at hq
    rw [hq]; exact hch
  refine ⟨C147_value_partial h hs he hv hk (fun l' hl => ⟨(hab l' (List.mem_append_right _ hl)).1, hb l' hl⟩), ?_⟩
  refine C147_absent h hs (by decide +kernel) ?_ hf
  intro l' hl
  rcases List.mem_append.mp hl with hl | hl
  · exact hab l' (List.mem_append_left _ hl)
  · rcases List.mem_cons.mp hl with rfl | hl
    · refine ⟨entry_ordinary he, ?_⟩
      intro hd
      have e1 := (entryOf_iff _ _).mpr hd
      rw [(entryOf_iff _ _).mpr hk] at e1
      revert e1; decide +kernel
    · exact hab l' (List.mem_append_right _ hl)

/-- an infix, checked -/
theorem infix_of {a b : Str} (h : Beep.containsSub a b = true) : a <:+: b := (Beep.containsSub_iff _ _).mp h

theorem not_infix_of {a b : Str} (h : Beep.containsSub a b = false) : ¬a <:+: b := by
  rw [← Beep.containsSub_iff, h]; simp

theorem small_section : Section small ((small.drop 1).take 5) := by
  refine ⟨[], "[Summary]\n".toList, "[End Summary]\n".toList, small.drop 7, by decide +kernel, by simp, infix_of (by decide +kernel), ?_,
    infix_of (by decide +kernel), not_infix_of (by decide +kernel), ?_⟩
  · intro l hl
    exact not_infix_of ((by decide +kernel : ∀ l ∈ (small.drop 1).take 5, Beep.containsSub "[End Summary]".toList l = false) l hl)
  · intro l hl
    exact not_infix_of ((by decide +kernel : ∀ l ∈ [] ++ "[Summary]\n".toList :: ((small.drop 1).take 5 ++ ["[End Summary]\n".toList]),
      Beep.containsSub "Cycle Number".toList l = false) l hl)

/-- the channel of the file above -/
example : EntryLine "Channel: 7\n".toList "Channel".toList "7".toList ['\n'] ∧ LabelOf "Channel: 7\n".toList "channel".toList :=
  ⟨⟨1, by decide +kernel, by unfold Plain PlainChar; decide +kernel, by unfold PlainChar; decide +kernel, by decide +kernel,
    by intro c h; cases h; decide, by intro c h; revert h; decide +revert⟩,
   (entryOf_iff _ _).mp (by decide +kernel)⟩

/-- and with the line ends of Windows -/
example : result ((small.map (fun l => l.dropLast ++ ['\r', '\n']))) ["channel", "protocol", "mass"] =
    .ok ([some (some "7\\r"), some (some "test\\r"), some (some "\\r")], ["Cycle Number", "Run Time (h)"], [["0", "0.5"], ["1", "1.5"]]) := by
  decide +kernel

/-- a degree sign at the end of an entry -/
example : result (small.map (fun l => if l = "Channel: 7\n".toList then "Channel: 7°\n".toList else l)) ["channel"] =
    .ok ([some (some "7\\xb0")], ["Cycle Number", "Run Time (h)"], [["0", "0.5"], ["1", "1.5"]]) := by
  decide +kernel

example : 127 ≤ '°'.toNat ∧ "0123456789abcdef".toList['°'.toNat / 16]? = some 'b' ∧
    "0123456789abcdef".toList['°'.toNat % 16]? = some '0' := by decide +kernel

end Beep.Props.Novonix
