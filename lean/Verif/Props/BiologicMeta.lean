import Verif.Proof.BiologicMeta
/-
C126: channel, barcode and protocol of Biologic runs.
-/
namespace Beep.Props.BiologicMeta
open Beep Beep.BiologicMeta Beep.Spec.BiologicMeta Beep.Spec.Ingest Beep.Proof.Ingest Beep.Proof.BiologicMeta
open Beep.Props.Ingest

theorem getLast_split (t : Str) (h : ¬ " : ".toList <:+: t) : Ingest.splitStr " : ".toList t = [t] := by
  rw [Ingest.splitStr, splitGo_none _ [] t h]
  rfl

/-- C126: from a file of the usual shape the number of the channel is the place of its letter in the
alphabet followed by its digits, the barcode is the comment, and there is a protocol.  Missing: comments
with apostrophes, backslashes, other alphabets or a colon between blanks, other orders of the lines, other line ends. -/
theorem C126_metadata_partial (file : List Str) (channel comment : Str) (definition : List Str)
    (hu : Usual file channel comment definition) (value : Str) (hv : Entry channel "Run on channel".toList value)
    (row : Nat) (ds : Str) (hc : ChannelIs value row ds) (num : Nat) (hw : Written ds num)
    (k text : Str) (ht : Entry comment k text) (hsep : ¬ " : ".toList <:+: text) :
    ∃ s, parseMetadata file = .ok s ∧ s.channel = some ((row * 10 ^ ds.length + num : Nat) : Int) ∧
      s.barcode = some text ∧ s.protocol.isSome = true := by
  have h1 := channelOf_eq hv hc
  rw [hw.2.2] at h1
  obtain ⟨s, e1, e2, e3, e4⟩ := parse_usual hu _ text h1 (by rw [parts_entry ht, getLast_split text hsep]; rfl)
  exact ⟨s, e1, e2, e3, by rw [e4]; rfl⟩

/-- C126: two files of the usual shape have the same protocol exactly if they define the same cycles
(two texts with the same digest are taken to be equal) -/
theorem C126_protocol_partial (file file' : List Str) (channel channel' comment comment' : Str) (definition definition' : List Str)
    (hu : Usual file channel comment definition) (hu' : Usual file' channel' comment' definition')
    (s s' : St) (h : parseMetadata file = .ok s) (h' : parseMetadata file' = .ok s')
    (n n' : Int) (hn : channelOf channel = .ok n) (hn' : channelOf channel' = .ok n') :
    s.protocol = s'.protocol ↔ definition = definition' := by
  obtain ⟨t, e1, _, _, e4⟩ := parse_usual hu n _ hn rfl
  obtain ⟨t', e1', _, _, e4'⟩ := parse_usual hu' n' _ hn' rfl
  rw [h] at e1
  rw [h'] at e1'
  cases e1
  cases e1'
  rw [e4, e4', Option.some.injEq]
  have nl : ∀ {f c m D}, Usual f c m D → ∀ l ∈ D, '\n' ∉ l := by
    intro f c m D hU l hl hm
    obtain ⟨pre, d, defs, post, _, rfl, hp, _⟩ := hU.shape
    exact absurd (hp l (List.mem_append_right _ hl) _ hm).1 (by decide)
  exact ⟨fun h => emit_inj _ _ (nl hu) (nl hu') h, fun h => by rw [h]⟩

/-- C126, channels with one digit: different channels have different numbers -/
theorem C126_channel_partial (line line' value value' : Str) (row row' : Nat) (c c' : Char)
    (hv : Entry line "Run on channel".toList value) (hv' : Entry line' "Run on channel".toList value')
    (hc : ChannelIs value row [c]) (hc' : ChannelIs value' row' [c']) :
    channelOf line = channelOf line' ↔ row = row' ∧ c = c' := by
  rw [channelOf_eq hv hc, channelOf_eq hv' hc']
  have hd : ∀ x : Char, x.isDigit = true → digit x < 10 ∧ x.toNat = digit x + 48 := by
    intro x hx
    rw [Char.isDigit, Bool.and_eq_true, decide_eq_true_eq, decide_eq_true_eq] at hx
    have h1 : (48 : Nat) ≤ x.toNat := by simpa using UInt32.le_iff_toNat_le.mp hx.1
    have h2 : x.toNat ≤ 57 := by simpa using UInt32.le_iff_toNat_le.mp hx.2
    have : digit x = x.toNat - 48 := rfl
    omega
  obtain ⟨_, _, _, _, _, h1⟩ := hc
  obtain ⟨_, _, _, _, _, h2⟩ := hc'
  obtain ⟨a1, a2⟩ := hd c (h1 c (List.mem_singleton.mpr rfl))
  obtain ⟨b1, b2⟩ := hd c' (h2 c' (List.mem_singleton.mpr rfl))
  simp only [List.length_singleton, List.reverse_singleton, List.map_cons, List.map_nil, Nat.ofDigits_singleton,
    Except.ok.injEq, Nat.cast_inj]
  constructor
  · intro h
    refine ⟨by omega, Char.toNat_inj.mp (by omega)⟩
  · rintro ⟨rfl, rfl⟩
    rfl

/-- C126 fails for channels with more digits: A11 and K1 have the same number -/
theorem C126_channel_violated :
    channelOf "Run on channel : A11 (SN 1)".toList = .ok 111 ∧ channelOf "Run on channel : K1 (SN 1)".toList = .ok 111 := by
  decide +kernel

/-- a file with these comments and this end -/
def fileWith (comment after : String) : List Str :=
  ["BT-Lab\r\n".toList, "Run on channel : B4 (SN 12)\r\n".toList, (comment ++ "\r\n").toList,
   "Cycle Definition : Charge\r\n".toList, "Ns 0 1\r\n".toList, "\r\n".toList, (after ++ "\r\n").toList, "\r\n".toList]

/-- C126 fails for a comment with a colon between blanks: only what follows it is the barcode -/
theorem C126_colon_violated : (parseMetadata (fileWith "Comments : cell : 7" "x")).map (fun s => s.barcode) =
    .ok (some "7".toList) := by decide +kernel

/-- C126 fails for a comment with an apostrophe: the barcode ends in the escaped line end and a quote -/
theorem C126_apostrophe_violated : (parseMetadata (fileWith "Comments : Li's cell" "x")).map (fun s => s.barcode) =
    .ok (some "Li's cell\\r\\n\"".toList) := by decide +kernel

/-- C126 fails for backslashes: they are doubled -/
theorem C126_backslash_violated : (parseMetadata (fileWith "Comments : a\\b" "x")).map (fun s => s.barcode) =
    .ok (some "a\\\\b".toList) := by decide +kernel

/-- C126 fails for bytes that cannot be printed, such as letters with accents: the barcode holds a backslash, an x and
two hexadecimal digits -/
theorem C126_bytes_violated : ∀ n : Fin 256, (n.val < 32 ∨ 127 ≤ n.val) → n.val ≠ 9 → n.val ≠ 10 → n.val ≠ 13 →
    ∃ h l : Fin 16, h.val * 16 + l.val = n.val ∧
    (parseMetadata (fileWith ("Comments : " ++ String.singleton (Char.ofNat n.val)) "x")).map (fun s => s.barcode) =
      .ok (some ['\\', 'x', Nat.digitChar h.val, Nat.digitChar l.val]) := by decide +kernel

/-- C126 fails for channels without a letter: the number is sixteen less -/
theorem C126_number_violated : ∀ n : Fin 10,
    channelOf ("Run on channel : ".toList ++ [Char.ofNat (48 + n.val)]) = .ok ((n.val : Int) - 16) := by decide +kernel

/-- a file in which another section and the comments come last -/
def lateFile (user : String) : List Str :=
  ["Run on channel : B4\r\n".toList, "Cycle Definition : Charge\r\n".toList, "Ns 0 1\r\n".toList, "\r\n".toList,
   ("User : " ++ user ++ "\r\n").toList, "\r\n".toList, "Comments : 7\r\n".toList, "\r\n".toList]

/-- C126 fails when another section and the comments follow the definition of the cycles: the section is part of
the protocol, so two runs of one protocol have different ones -/
theorem C126_order_violated : (parseMetadata (lateFile "a")).map (fun s => s.protocol) ≠
    (parseMetadata (lateFile "b")).map (fun s => s.protocol) := by decide +kernel

/-! ### the name of the file -/

/-- C126: the metadata of an export `<name>.csv` are read from `<name>.mpl` beside it, if ".csv" occurs
nowhere else in the path -/
theorem C126_path_partial (stem : Str) (h : Once ".csv".toList (stem ++ ".csv".toList)) :
    metadataPath (stem ++ ".csv".toList) = stem ++ ".mpl".toList := by
  obtain ⟨a, b, e, hall⟩ := h
  have h0 : stem = a := hall stem [] (by simp)
  subst h0
  have hb : b = [] := by
    rw [List.append_assoc] at e
    have e2 := List.append_cancel_left e
    have hl := congrArg List.length e2
    rw [List.length_append] at hl
    exact List.length_eq_zero_iff.mp (by omega)
  subst hb
  have hf : First ".csv".toList (stem ++ ".csv".toList) stem [] :=
    ⟨by simp, fun a' b' e' => by rw [hall a' b' e']⟩
  unfold metadataPath
  rw [Ingest.splitStr, splitGo_first _ (by decide) [] _ stem [] hf]
  simp [Ingest.splitGo, Text.join]

/-- C126 fails for exports with another extension: the metadata are looked for in the export itself -/
theorem C126_path_violated (path : Str) (h : ¬ ".csv".toList <:+: path) : metadataPath path = path := by
  unfold metadataPath
  rw [Ingest.splitStr, splitGo_none _ [] path h]
  simp [Text.join]

/-- and a directory whose name contains the extension is renamed as well -/
theorem C126_directory_violated : metadataPath "data.csvs/a.csv".toList = "data.mpls/a.mpl".toList := by decide +kernel

/-! ### an example -/

theorem trimmed_self {t : Str} (h1 : ∀ c, t.head? = some c → Text.isWs c = false)
    (h2 : ∀ c, t.getLast? = some c → Text.isWs c = false) : Trimmed t t :=
  ⟨[], [], by simp, by simp, by simp, h1, h2⟩

theorem key_of (l k : Str) (h : (parts l).head? = some k) : Key l k := (key_iff l k).mp h

theorem ex_usual : Usual (fileWith "Comments : cell 7" "x") "Run on channel : B4 (SN 12)".toList "Comments : cell 7".toList
    ["Cycle Definition : Charge".toList, "Ns 0 1".toList] where
  shape := by
    refine ⟨["BT-Lab".toList, "Run on channel : B4 (SN 12)".toList, "Comments : cell 7".toList],
      "Cycle Definition : Charge".toList, ["Ns 0 1".toList], ["x\r\n".toList, "\r\n".toList], by decide +kernel, rfl,
      by unfold Plain; decide +kernel, (isDe_iff _).mp (by decide +kernel), ?_, by decide +kernel, by decide +kernel,
      (isCh_iff _).mp (by decide +kernel), ?_, by decide +kernel, (isCo_iff _).mp (by decide +kernel), ?_, by decide +kernel⟩
    · simp only [← isDe_iff]; decide +kernel
    · simp only [← isCh_iff]; decide +kernel
    · simp only [← isCo_iff]; decide +kernel

/-- the example is read as stated: channel B4 is number 24 -/
example : (parseMetadata (fileWith "Comments : cell 7" "x")).map (fun s => (s.channel, s.barcode, s.protocol.isSome)) =
    .ok (some 24, some "cell 7".toList, true) := by decide +kernel

/-- the channel of the example -/
example : ChannelIs "B4 (SN 12)".toList 2 ['4'] ∧ Written ['4'] 4 :=
  ⟨⟨by decide, by decide, " (SN 12)".toList, by decide +kernel, .inr ⟨"(SN 12)".toList, by decide⟩, by decide⟩,
   by decide, by decide, by decide⟩

/-- once in a path -/
example : Once ".csv".toList ("a/b".toList ++ ".csv".toList) := by
  refine ⟨"a/b".toList, [], by decide +kernel, ?_⟩
  intro a' b' h
  have hl := congrArg List.length h
  have : a'.length ≤ 3 := by simp at hl; omega
  have ha : a' = ("a/b.csv".toList).take a'.length := by
    have : "a/b".toList ++ ".csv".toList = "a/b.csv".toList := by decide +kernel
    rw [← this, h, List.append_assoc, List.take_left]
  have hb : ".csv".toList = (("a/b.csv".toList).drop a'.length).take 4 := by
    have e : "a/b".toList ++ ".csv".toList = "a/b.csv".toList := by decide +kernel
    rw [← e, h, List.append_assoc, List.drop_left]
    rfl
  have hc : a'.length = 0 ∨ a'.length = 1 ∨ a'.length = 2 ∨ a'.length = 3 := by omega
  rcases hc with h | h | h | h
  · rw [h] at hb; exact absurd hb (by decide +kernel)
  · rw [h] at hb; exact absurd hb (by decide +kernel)
  · rw [h] at hb; exact absurd hb (by decide +kernel)
  · rw [ha, h]; decide +kernel

end Beep.Props.BiologicMeta
