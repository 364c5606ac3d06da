import Verif.Model.BiologicMeta
import Verif.Spec.BiologicMeta
import Verif.Props.Ingest
/-
Lemmas about the lines of metadata files.
-/
namespace Beep.Proof.BiologicMeta
open Beep Beep.BiologicMeta Beep.Spec.BiologicMeta Beep.Spec.Ingest Beep.Proof.Ingest Beep.Props.Ingest

theorem sep_ne : " : ".toList ≠ [] := by decide

theorem parts_entry {line key value : Str} (h : Entry line key value) :
    parts line = key :: Ingest.splitStr " : ".toList value := by
  obtain ⟨t, h1, h2, h3⟩ := h
  unfold parts
  rw [trimmed_strip line t h1, Ingest.splitStr, splitGo_first _ sep_ne [] t key value ⟨h2, h3⟩]
  rfl

theorem parts_whole {line key : Str} (h1 : Trimmed line key) (h2 : ¬ " : ".toList <:+: key) : parts line = [key] := by
  unfold parts
  rw [trimmed_strip line key h1, Ingest.splitStr, splitGo_none _ [] key h2]
  rfl

theorem key_iff (line key : Str) : (parts line).head? = some key ↔ Key line key := by
  constructor
  · intro h
    by_cases hs : " : ".toList <:+: Text.strip line
    · obtain ⟨a, b, hf⟩ := first_exists _ _ hs
      have he : Entry line a b := ⟨_, strip_trimmed line, hf.1, hf.2⟩
      rw [parts_entry he] at h
      cases h
      exact .inl ⟨b, he⟩
    · rw [parts_whole (strip_trimmed line) hs] at h
      cases h
      exact .inr ⟨strip_trimmed line, hs⟩
  · rintro (⟨v, h⟩ | ⟨h1, h2⟩)
    · rw [parts_entry h]; rfl
    · rw [parts_whole h1 h2]; rfl

theorem parts_ne_nil (line : Str) : parts line ≠ [] := splitGo_ne_nil _ _ _ _

theorem contains_iff (f line : Str) :
    containsSub f ((parts line).head?.getD []) = true ↔ ∃ k, Key line k ∧ f <:+: k := by
  rw [containsSub_iff]
  obtain ⟨k, ks, e⟩ := List.exists_cons_of_ne_nil (parts_ne_nil line)
  constructor
  · intro h
    refine ⟨k, (key_iff line k).mp (by rw [e]; rfl), ?_⟩
    rw [e] at h
    exact h
  · rintro ⟨k', hk, h⟩
    rw [(key_iff line k').mpr hk]
    exact h

theorem channel_iff (line : Str) : (parts line).head? = some "Run on channel".toList ↔ IsChannel line := key_iff _ _

theorem reprByte_plain {c : Char} (h : 32 ≤ c.toNat ∧ c.toNat < 127 ∧ c ≠ '\'' ∧ c ≠ '\\') : reprByte '\'' c = [c] := by
  obtain ⟨h1, h2, h3, h4⟩ := h
  unfold reprByte
  have e1 : c ≠ '\t' := by rintro rfl; exact absurd h1 (by decide)
  have e2 : c ≠ '\n' := by rintro rfl; exact absurd h1 (by decide)
  have e3 : c ≠ '\r' := by rintro rfl; exact absurd h1 (by decide)
  rw [if_neg (by tauto), if_neg e1, if_neg e2, if_neg e3, if_neg (by omega)]

theorem flatMap_plain (l : Str) (h : Plain l) : l.flatMap (reprByte '\'') = l := by
  induction l with
  | nil => rfl
  | cons c l ih =>
    rw [List.flatMap_cons, reprByte_plain (h c (List.mem_cons_self ..)), ih (fun c hc => h c (List.mem_cons_of_mem _ hc))]
    rfl

theorem clean_plain (l : Str) (h : Plain l) : clean (reprBytes (l ++ "\r\n".toList)) = l := by
  have hq : '\'' ∉ l ++ "\r\n".toList := by
    intro hm
    rcases List.mem_append.mp hm with hm | hm
    · exact (h _ hm).2.2.1 rfl
    · exact absurd hm (by decide)
  have e : reprBytes (l ++ "\r\n".toList) = 'b' :: '\'' :: (l ++ "\\r\\n".toList ++ ['\'']) := by
    unfold reprBytes
    rw [if_neg (fun hh => hq hh.1)]
    simp only [List.flatMap_append, flatMap_plain l h]
    rfl
  rw [e]
  unfold clean
  have p1 : "b'".toList.isPrefixOf ('b' :: '\'' :: (l ++ "\\r\\n".toList ++ ['\''])) = true := by
    rw [List.isPrefixOf_iff_prefix]
    exact ⟨l ++ "\\r\\n".toList ++ ['\''], rfl⟩
  have p2 : "'".toList.isSuffixOf (l ++ "\\r\\n".toList ++ ['\'']) = true := by
    rw [List.isSuffixOf_iff_suffix]
    exact ⟨_, rfl⟩
  have p3 : "\\r\\n".toList.isSuffixOf (l ++ "\\r\\n".toList) = true := by
    rw [List.isSuffixOf_iff_suffix]
    exact ⟨_, rfl⟩
  simp only [p1, if_true, List.drop_succ_cons, List.drop_zero, p2, List.dropLast_concat, p3]
  rw [List.length_append]
  have : l.length + "\\r\\n".toList.length - 4 = l.length := by
    have : "\\r\\n".toList.length = 4 := by decide
    omega
  rw [this, List.take_left]

/-- text of a line in the hashed text -/
def emit (line : Str) : Str :=
  (if containsSub "Cycle Definition".toList ((parts line).head?.getD []) then line ++ ['\n'] else []) ++ (line ++ ['\n'])

theorem step_eq (line : Str) (s : St) (ch : Option Int)
    (hch : stepChannel line s = .ok { s with channel := ch }) :
    step line s = .ok (stepProtocol line (stepStart line (stepBarcode line { s with channel := ch }))) := by
  unfold step
  rw [hch]
  rfl

theorem digitsValue_append (x y : Str) (acc : Nat) :
    Ingest.digitsValue acc (x ++ y) = (Ingest.digitsValue acc x).bind (fun n => Ingest.digitsValue n y) := by
  induction x generalizing acc with
  | nil => rfl
  | cons c x ih =>
    rw [List.cons_append, Ingest.digitsValue, Ingest.digitsValue]
    split
    · exact ih _
    · rfl

theorem digitsValue_chars (x : Str) (hx : ∀ c ∈ x, c.isDigit = true) (acc : Nat) :
    Ingest.digitsValue acc x = some (Nat.ofDigitChars 10 x acc) := by
  induction x generalizing acc with
  | nil => rfl
  | cons c x ih =>
    rw [Ingest.digitsValue, if_pos (hx c (List.mem_cons_self ..)), ih (fun c hc => hx c (List.mem_cons_of_mem _ hc))]
    rfl

theorem channel_digits (a : Nat) (ds : Str) (hds : ∀ c ∈ ds, c.isDigit = true) :
    Ingest.parseInt (Nat.toDigits 10 a ++ ds) =
      .ok ((a * 10 ^ ds.length + Nat.ofDigits 10 (ds.reverse.map digit) : Nat) : Int) := by
  have h0 : Nat.toDigits 10 a ++ ds ≠ [] := by
    simp [Nat.toDigits_ne_nil]
  obtain ⟨c, cs, e⟩ := List.exists_cons_of_ne_nil h0
  have hv : Ingest.digitsValue 0 (Nat.toDigits 10 a ++ ds) = some (a * 10 ^ ds.length + Nat.ofDigits 10 (ds.reverse.map digit)) := by
    rw [digitsValue_append, digitsValue_chars _ (fun c hc => Nat.isDigit_of_mem_toDigits (b := 10) (by decide) (by decide) hc)]
    rw [Nat.ofDigitChars_toDigits (by decide) (by decide)]
    show Ingest.digitsValue a ds = _
    rw [digitsValue_iff]
    exact ⟨hds, rfl⟩
  rw [e] at hv ⊢
  rw [Ingest.parseInt, hv]
  simp

theorem channelOf_eq {line value : Str} (h : Entry line "Run on channel".toList value) {row : Nat} {ds : Str}
    (hc : ChannelIs value row ds) :
    channelOf line = .ok ((row * 10 ^ ds.length + Nat.ofDigits 10 (ds.reverse.map digit) : Nat) : Int) := by
  obtain ⟨h1, h2, rest, rfl, hr, hds⟩ := hc
  have hX : (Char.ofNat (64 + row)).toNat = 64 + row := by
    have : ∀ r ∈ List.range 27, (Char.ofNat (64 + r)).toNat = 64 + r := by decide
    exact this row (List.mem_range.mpr (by omega))
  have hXb : Char.ofNat (64 + row) ≠ ' ' := by
    intro e
    have := congrArg Char.toNat e
    rw [hX] at this
    have : (' ' : Char).toNat = 32 := rfl
    omega
  have hXc : Char.ofNat (64 + row) ≠ ':' := by
    intro e
    have := congrArg Char.toNat e
    rw [hX] at this
    have : (':' : Char).toNat = 58 := rfl
    omega
  have hb : ' ' ∉ Char.ofNat (64 + row) :: ds := by
    intro hm
    rcases List.mem_cons.mp hm with e | hm
    · exact hXb e.symm
    · exact absurd (hds _ hm) (by decide)
  -- the first piece of the value
  have hv : ∃ r more, Ingest.splitStr " : ".toList (Char.ofNat (64 + row) :: (ds ++ rest)) =
      (Char.ofNat (64 + row) :: (ds ++ r)) :: more ∧ (r = [] ∨ ∃ r', r = ' ' :: r') := by
    by_cases hs : " : ".toList <:+: Char.ofNat (64 + row) :: (ds ++ rest)
    · obtain ⟨a, b, hf⟩ := first_exists _ _ hs
      have e1 : Ingest.splitStr " : ".toList (Char.ofNat (64 + row) :: (ds ++ rest)) = a :: Ingest.splitStr " : ".toList b := by
        rw [Ingest.splitStr, splitGo_first _ sep_ne [] _ a b hf]
        rfl
      have e2 := hf.1
      have hp : Char.ofNat (64 + row) :: ds <+: a := by
        have hp1 : Char.ofNat (64 + row) :: ds <+: Char.ofNat (64 + row) :: (ds ++ rest) := ⟨rest, by simp⟩
        have hp2 : a <+: Char.ofNat (64 + row) :: (ds ++ rest) := ⟨" : ".toList ++ b, by rw [e2, List.append_assoc]⟩
        rcases Nat.le_total (Char.ofNat (64 + row) :: ds).length a.length with hl | hl
        · exact List.prefix_of_prefix_length_le hp1 hp2 hl
        · have hp3 := List.prefix_of_prefix_length_le hp2 hp1 hl
          obtain ⟨t, ht⟩ := hp3
          cases t with
          | nil => rw [List.append_nil] at ht; exact ⟨[], by rw [ht, List.append_nil]⟩
          | cons x t =>
            exfalso
            have : Char.ofNat (64 + row) :: (ds ++ rest) = (a ++ x :: t) ++ rest := by rw [ht]; rfl
            rw [this, List.append_assoc, List.append_assoc] at e2
            have e3 := List.append_cancel_left e2
            have : x = ' ' := by
              have := congrArg List.head? e3
              simpa using this
            exact hb (by rw [← ht, this]; simp)
      obtain ⟨r, hr'⟩ := hp
      refine ⟨r, Ingest.splitStr " : ".toList b, by rw [e1, ← hr']; rfl, ?_⟩
      cases r with
      | nil => exact .inl rfl
      | cons x r =>
        right
        rw [← hr'] at e2
        have e3 : rest = x :: (r ++ " : ".toList ++ b) := by
          have : (Char.ofNat (64 + row) :: ds) ++ rest = (Char.ofNat (64 + row) :: ds) ++ (x :: (r ++ " : ".toList ++ b)) := by
            simpa using e2
          exact List.append_cancel_left this
        rcases hr with rfl | ⟨r', rfl⟩
        · cases e3
        · cases e3
          exact ⟨r, rfl⟩
    · refine ⟨rest, [], ?_, hr⟩
      rw [Ingest.splitStr, splitGo_none _ [] _ hs]
      rfl
  obtain ⟨r, more, e1, hr'⟩ := hv
  have e2 : ∃ more, Text.splitC ' ' (Char.ofNat (64 + row) :: (ds ++ r)) = (Char.ofNat (64 + row) :: ds) :: more := by
    rcases hr' with rfl | ⟨r', rfl⟩
    · exact ⟨[], by rw [List.append_nil, Text.splitC_none _ _ hb]⟩
    · exact ⟨_, Text.splitC_append ' ' (Char.ofNat (64 + row) :: ds) r' hb⟩
  obtain ⟨more', e2⟩ := e2
  unfold channelOf
  rw [parts_entry h, e1]
  simp only [e2]
  rw [if_neg (by omega), hX, Nat.add_sub_cancel_left, channel_digits row ds hds]

/-! ### the loop -/

def isCh (l : Str) : Bool := decide ((parts l).head? = some "Run on channel".toList)
def isCo (l : Str) : Bool := containsSub "Comments".toList ((parts l).head?.getD [])
def isDe (l : Str) : Bool := containsSub "Cycle Definition".toList ((parts l).head?.getD [])

theorem isCh_iff (l : Str) : isCh l = true ↔ IsChannel l := by rw [isCh, decide_eq_true_eq, channel_iff]
theorem isCo_iff (l : Str) : isCo l = true ↔ IsComment l := contains_iff _ l
theorem isDe_iff (l : Str) : isDe l = true ↔ IsDefinition l := contains_iff _ l

/-- the state after a line, for a known channel and a known comment -/
def next (n : Int) (v : Str) (l : Str) (s : St) : St where
  channel := if isCh l then some n else s.channel
  barcode := if isCo l then some v else s.barcode
  started := s.started || isDe l
  text := s.text ++ (if isDe l then l ++ ['\n'] else []) ++ (if (s.started || isDe l) && !l.isEmpty then l ++ ['\n'] else [])
  protocol := if (s.started || isDe l) && l.isEmpty then some (s.text ++ (if isDe l then l ++ ['\n'] else [])) else s.protocol

theorem step_next (n : Int) (v : Str) (l : Str) (s : St) (hc : isCh l = true → channelOf l = .ok n)
    (hv : isCo l = true → (parts l).getLast?.getD [] = v) : step l s = .ok (next n v l s) := by
  have h1 : stepChannel l s = .ok { s with channel := if isCh l then some n else s.channel } := by
    unfold stepChannel
    cases h : isCh l with
    | true =>
      have h' := (isCh_iff l).mp h
      rw [if_pos ((channel_iff l).mpr h'), hc h]
      rfl
    | false =>
      have h' : ¬ IsChannel l := by rw [← isCh_iff, h]; simp
      rw [if_neg (fun hh => h' ((channel_iff l).mp hh))]
      rfl
  rw [step_eq l s _ h1]
  congr 1
  have h2 : stepBarcode l { s with channel := if isCh l then some n else s.channel } =
      { s with channel := if isCh l then some n else s.channel, barcode := if isCo l then some v else s.barcode } := by
    unfold stepBarcode
    cases h : isCo l with
    | true =>
      rw [if_pos (show containsSub "Comments".toList ((parts l).head?.getD []) = true from h), hv h]
      rfl
    | false =>
      rw [if_neg (by show ¬ isCo l = true; simp [h])]
      rfl
  rw [h2]
  have hb : l = [] → isDe l = false := by rintro rfl; decide
  have e : containsSub "Cycle Definition".toList ((parts l).head?.getD []) = isDe l := rfl
  unfold stepStart next
  rw [e]
  generalize isDe l = de at hb
  generalize (if isCh l = true then some n else s.channel) = ch
  generalize (if isCo l = true then some v else s.barcode) = co
  unfold stepProtocol
  cases de with
  | true =>
    cases l with
    | nil => exact absurd (hb rfl) (by simp)
    | cons c l => simp
  | false =>
    cases hs : s.started with
    | true => cases l <;> simp
    | false => simp

/-- the loop over plain lines during which no protocol is found -/
theorem loop_plain (n : Int) (v : Str) (ls : List Str) (rest : List Str) (k : Nat) (s : St)
    (hp : ∀ l ∈ ls, Plain l) (hc : ∀ l ∈ ls, isCh l = true → channelOf l = .ok n)
    (hv : ∀ l ∈ ls, isCo l = true → (parts l).getLast?.getD [] = v) (hs : s.protocol = none)
    (hno : (∀ l ∈ ls, l ≠ []) ∨ (s.started = false ∧ ∀ l ∈ ls, isDe l = false)) :
    loop (ls.length + k) (ls.map (· ++ "\r\n".toList) ++ rest) s = loop k rest (ls.foldl (fun s l => next n v l s) s) ∧
    (ls.foldl (fun s l => next n v l s) s).protocol = none := by
  induction ls generalizing s with
  | nil => simp [hs]
  | cons l ls ih =>
    have hpr : (next n v l s).protocol = none := by
      unfold next
      rcases hno with h | ⟨h1, h2⟩
      · have := h l (List.mem_cons_self ..)
        simp [this, hs]
      · simp [h1, h2 l (List.mem_cons_self ..), hs]
    have hno' : (∀ l ∈ ls, l ≠ []) ∨ ((next n v l s).started = false ∧ ∀ l ∈ ls, isDe l = false) := by
      rcases hno with h | ⟨h1, h2⟩
      · exact .inl (fun l hl => h l (List.mem_cons_of_mem _ hl))
      · exact .inr ⟨by simp [next, h1, h2 l (List.mem_cons_self ..)], fun l hl => h2 l (List.mem_cons_of_mem _ hl)⟩
    obtain ⟨i1, i2⟩ := ih (next n v l s) (fun l hl => hp l (List.mem_cons_of_mem _ hl))
      (fun l hl => hc l (List.mem_cons_of_mem _ hl)) (fun l hl => hv l (List.mem_cons_of_mem _ hl)) hpr hno'
    refine ⟨?_, i2⟩
    rw [List.foldl_cons, ← i1]
    have e : (l :: ls).length + k = (ls.length + k) + 1 := by rw [List.length_cons]; omega
    rw [e, loop]
    simp only [List.map_cons, List.cons_append, List.head?_cons, Option.getD_some, List.tail_cons]
    rw [clean_plain l (hp l (List.mem_cons_self ..)),
      step_next n v l s (hc l (List.mem_cons_self ..)) (hv l (List.mem_cons_self ..))]
    simp only [bind, Except.bind]
    rw [if_neg (by simp [done, hpr])]

theorem fold_channel (n : Int) (v : Str) (ls : List Str) (s : St) :
    (ls.foldl (fun s l => next n v l s) s).channel = if ∃ l ∈ ls, isCh l = true then some n else s.channel := by
  induction ls generalizing s with
  | nil => simp
  | cons l ls ih =>
    rw [List.foldl_cons, ih]
    cases h : isCh l <;> simp [h, next]

theorem fold_barcode (n : Int) (v : Str) (ls : List Str) (s : St) :
    (ls.foldl (fun s l => next n v l s) s).barcode = if ∃ l ∈ ls, isCo l = true then some v else s.barcode := by
  induction ls generalizing s with
  | nil => simp
  | cons l ls ih =>
    rw [List.foldl_cons, ih]
    cases h : isCo l <;> simp [h, next]

theorem fold_before (n : Int) (v : Str) (ls : List Str) (s : St) (hs : s.started = false) (h : ∀ l ∈ ls, isDe l = false) :
    (ls.foldl (fun s l => next n v l s) s).started = false ∧ (ls.foldl (fun s l => next n v l s) s).text = s.text := by
  induction ls generalizing s with
  | nil => exact ⟨hs, rfl⟩
  | cons l ls ih =>
    rw [List.foldl_cons]
    have hl := h l (List.mem_cons_self ..)
    obtain ⟨h1, h2⟩ := ih (next n v l s) (by simp [next, hs, hl]) (fun l hl => h l (List.mem_cons_of_mem _ hl))
    exact ⟨h1, by rw [h2]; simp [next, hs, hl]⟩

theorem fold_after (n : Int) (v : Str) (ls : List Str) (s : St) (hs : s.started = true) (h : ∀ l ∈ ls, l ≠ []) :
    (ls.foldl (fun s l => next n v l s) s).started = true ∧
    (ls.foldl (fun s l => next n v l s) s).text = s.text ++ ls.flatMap emit := by
  induction ls generalizing s with
  | nil => exact ⟨hs, by simp⟩
  | cons l ls ih =>
    rw [List.foldl_cons]
    have hl := h l (List.mem_cons_self ..)
    obtain ⟨h1, h2⟩ := ih (next n v l s) (by simp [next, hs]) (fun l hl => h l (List.mem_cons_of_mem _ hl))
    refine ⟨h1, ?_⟩
    rw [h2, List.flatMap_cons]
    cases l with
    | nil => exact absurd rfl hl
    | cons c l =>
      have e : emit (c :: l) = (if isDe (c :: l) then (c :: l) ++ ['\n'] else []) ++ ((c :: l) ++ ['\n']) := rfl
      rw [e]
      unfold next
      generalize isDe (c :: l) = b
      simp [hs]

/-- reading a file of the usual shape -/
theorem parse_usual {file : List Str} {channel comment : Str} {definition : List Str}
    (hu : Usual file channel comment definition) (n : Int) (v : Str) (hn : channelOf channel = .ok n)
    (hv : (parts comment).getLast?.getD [] = v) :
    ∃ s, parseMetadata file = .ok s ∧ s.channel = some n ∧ s.barcode = some v ∧
      s.protocol = some (definition.flatMap emit) := by
  obtain ⟨pre, d, defs, post, rfl, rfl, hp, hd, hpre, hne, hc1, hc2, hc3, hm1, hm2, hm3, hlen⟩ := hu.shape
  have hd' := (isDe_iff d).mpr hd
  have hdne : d ≠ [] := by rintro rfl; exact absurd hd' (by decide)
  have hpre' : ∀ l ∈ pre, isDe l = false := fun l hl => by
    rw [Bool.eq_false_iff]; exact fun h => hpre l hl ((isDe_iff l).mp h)
  have hch : ∀ l ∈ pre ++ d :: defs, isCh l = true → channelOf l = .ok n := fun l hl h => by
    rw [hc3 l hl ((isCh_iff l).mp h)]; exact hn
  have hco : ∀ l ∈ pre ++ d :: defs, isCo l = true → (parts l).getLast?.getD [] = v := fun l hl h => by
    rw [hm3 l hl ((isCo_iff l).mp h)]; exact hv
  obtain ⟨j, hj⟩ : ∃ j, 10001 = pre.length + ((d :: defs).length + (j + 1)) := by
    rw [List.length_append] at hlen
    exact ⟨10000 - (pre.length + (d :: defs).length), by omega⟩
  unfold parseMetadata
  rw [hj, List.map_append, List.map_append, List.append_assoc, List.append_assoc]
  obtain ⟨e1, p1⟩ := loop_plain n v pre ((d :: defs).map (· ++ "\r\n".toList) ++ ([[]].map (· ++ "\r\n".toList) ++ post))
    ((d :: defs).length + (j + 1)) {} (fun l hl => hp l (List.mem_append_left _ hl))
    (fun l hl => hch l (List.mem_append_left _ hl)) (fun l hl => hco l (List.mem_append_left _ hl)) rfl
    (.inr ⟨rfl, hpre'⟩)
  obtain ⟨s1, t1⟩ := fold_before n v pre {} rfl hpre'
  have c1 := fold_channel n v pre {}
  have b1 := fold_barcode n v pre {}
  rw [if_pos ⟨channel, hc1, (isCh_iff _).mpr hc2⟩] at c1
  rw [if_pos ⟨comment, hm1, (isCo_iff _).mpr hm2⟩] at b1
  rw [e1]
  generalize pre.foldl (fun s l => next n v l s) {} = s' at p1 s1 t1 c1 b1 ⊢
  have hne' : ∀ l ∈ d :: defs, l ≠ [] := by
    intro l hl
    rcases List.mem_cons.mp hl with rfl | hl
    · exact hdne
    · rintro rfl; exact hne hl
  obtain ⟨e2, p2⟩ := loop_plain n v (d :: defs) ([[]].map (· ++ "\r\n".toList) ++ post) (j + 1) s'
    (fun l hl => hp l (List.mem_append_right _ hl))
    (fun l hl => hch l (List.mem_append_right _ hl)) (fun l hl => hco l (List.mem_append_right _ hl)) p1 (.inl hne')
  have c2 := fold_channel n v (d :: defs) s'
  have b2 := fold_barcode n v (d :: defs) s'
  rw [c1, ite_self] at c2
  rw [b1, ite_self] at b2
  have st2 : ((d :: defs).foldl (fun s l => next n v l s) s').started = true ∧
      ((d :: defs).foldl (fun s l => next n v l s) s').text = (d :: defs).flatMap emit := by
    rw [List.foldl_cons]
    obtain ⟨a1, a2⟩ := fold_after n v defs (next n v d s') (by simp [next, hd']) (fun l hl => hne' l (List.mem_cons_of_mem _ hl))
    refine ⟨a1, ?_⟩
    rw [a2, List.flatMap_cons]
    cases d with
    | nil => exact absurd rfl hdne
    | cons c d =>
      have e : emit (c :: d) = (if isDe (c :: d) then (c :: d) ++ ['\n'] else []) ++ ((c :: d) ++ ['\n']) := rfl
      rw [e]
      unfold next
      rw [hd', t1]
      simp
  rw [e2]
  generalize (d :: defs).foldl (fun s l => next n v l s) s' = s2 at p2 c2 b2 st2 ⊢
  have hnil : Plain [] := fun c hc => by cases hc
  rw [loop]
  simp only [List.map_cons, List.map_nil, List.cons_append, List.head?_cons, Option.getD_some, List.nil_append]
  have hcl : clean (reprBytes "\r\n".toList) = [] := clean_plain [] hnil
  rw [hcl, step_next n v [] s2 (fun h => absurd h (by decide)) (fun h => absurd h (by decide))]
  simp only [bind, Except.bind]
  have hde : isDe [] = false := by decide
  have hce : isCh [] = false := by decide
  have hoe : isCo [] = false := by decide
  have hnx : (next n v [] s2).channel = some n ∧ (next n v [] s2).barcode = some v ∧
      (next n v [] s2).protocol = some ((d :: defs).flatMap emit) := by
    simp only [next, hde, hce, hoe, c2, b2, st2.1, st2.2]
    simp
  rw [if_pos (by simp [done, hnx])]
  exact ⟨_, rfl, hnx⟩

theorem line_eq {a b x y : Str} (ha : '\n' ∉ a) (hb : '\n' ∉ b) (h : a ++ '\n' :: x = b ++ '\n' :: y) : a = b := by
  have e1 := Text.splitC_append '\n' a x ha
  have e2 := Text.splitC_append '\n' b y hb
  rw [h, e2] at e1
  exact (List.cons.inj e1).1.symm

theorem emit_start (l : Str) : ∃ r, emit l = l ++ '\n' :: r := by
  unfold emit
  split
  · exact ⟨l ++ ['\n'], by simp⟩
  · exact ⟨[], by simp⟩

theorem emit_inj (xs ys : List Str) (hx : ∀ l ∈ xs, '\n' ∉ l) (hy : ∀ l ∈ ys, '\n' ∉ l)
    (h : xs.flatMap emit = ys.flatMap emit) : xs = ys := by
  induction xs generalizing ys with
  | nil =>
    cases ys with
    | nil => rfl
    | cons y ys =>
      obtain ⟨r, hr⟩ := emit_start y
      rw [List.flatMap_cons, hr] at h
      simp at h
  | cons x xs ih =>
    obtain ⟨r, hr⟩ := emit_start x
    cases ys with
    | nil =>
      rw [List.flatMap_cons, hr] at h
      simp at h
    | cons y ys =>
      obtain ⟨r', hr'⟩ := emit_start y
      have h0 := h
      rw [List.flatMap_cons, List.flatMap_cons, hr, hr', List.append_assoc, List.append_assoc] at h
      have e := line_eq (hx x (List.mem_cons_self ..)) (hy y (List.mem_cons_self ..)) h
      subst e
      rw [List.flatMap_cons, List.flatMap_cons] at h0
      rw [ih ys (fun l hl => hx l (List.mem_cons_of_mem _ hl)) (fun l hl => hy l (List.mem_cons_of_mem _ hl))
        (List.append_cancel_left h0)]

end Beep.Proof.BiologicMeta
