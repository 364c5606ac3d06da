import Verif.Spec.Retrigger
import Verif.Proof.Text
import Verif.Proof.Py
/-
Property theorems C158 about queueing raw files once more.
-/
namespace Beep.Props.Retrigger
open Beep Beep.Text Beep.Retrigger Beep.Spec.Retrigger

/-! ### names -/

theorem last_split (c : Char) (a s : Str) (h : c ∉ s) : (splitC c (a ++ c :: s)).getLast? = some s := by
  induction a with
  | nil =>
    rw [List.nil_append, splitC, if_pos rfl, splitC_none c s h]
    rfl
  | cons x a ih =>
    rw [List.cons_append, splitC]
    split
    · cases hs : splitC c (a ++ c :: s) with
      | nil => exact absurd hs (splitC_ne_nil _ _)
      | cons p ps => rw [hs] at ih; rw [List.getLast?_cons_cons]; exact ih
    · cases hs : splitC c (a ++ c :: s) with
      | nil => exact absurd hs (splitC_ne_nil _ _)
      | cons p ps =>
        cases ps with
        | nil =>
          exfalso
          have hl := congrArg List.length hs
          clear ih hs
          induction a with
          | nil =>
            rw [List.nil_append, splitC, if_pos rfl, splitC_none c s h] at hl
            simp at hl
          | cons y a ih2 =>
            rw [List.cons_append, splitC] at hl
            split at hl
            · have := splitC_ne_nil c (a ++ c :: s)
              cases h3 : splitC c (a ++ c :: s) with
              | nil => exact this h3
              | cons => rw [h3] at hl; simp at hl
            · cases h3 : splitC c (a ++ c :: s) with
              | nil => exact absurd h3 (splitC_ne_nil _ _)
              | cons q qs =>
                rw [h3] at hl ih2
                exact ih2 (by simpa using hl)
        | cons q qs => rw [hs] at ih; rw [List.getLast?_cons_cons] at ih ⊢; exact ih

theorem split_last (key : Str) : ∃ dir file, '/' ∉ file ∧ (key = file ∧ dir = [] ∨ key = dir ++ '/' :: file) := by
  induction key with
  | nil => exact ⟨[], [], by simp, Or.inl ⟨rfl, rfl⟩⟩
  | cons x xs ih =>
    obtain ⟨dir, file, hf, (⟨h, _⟩ | h)⟩ := ih
    · by_cases hx : x = '/'
      · exact ⟨[], file, hf, Or.inr (by rw [hx, h]; rfl)⟩
      · refine ⟨[], x :: file, ?_, Or.inl ⟨by rw [h], rfl⟩⟩
        rw [List.mem_cons]
        rintro (h' | h')
        · exact hx h'.symm
        · exact hf h'
    · exact ⟨x :: dir, file, hf, Or.inr (by rw [h]; rfl)⟩

theorem split_first (file : Str) : ∃ stem rest, file = stem ++ rest ∧ '.' ∉ stem ∧ (rest = [] ∨ ∃ r, rest = '.' :: r) := by
  induction file with
  | nil => exact ⟨[], [], rfl, by simp, Or.inl rfl⟩
  | cons x xs ih =>
    by_cases hx : x = '.'
    · exact ⟨[], x :: xs, rfl, by simp, Or.inr ⟨xs, by rw [hx]⟩⟩
    · obtain ⟨stem, rest, e, h1, h2⟩ := ih
      refine ⟨x :: stem, rest, by rw [e]; rfl, ?_, h2⟩
      rw [List.mem_cons]
      rintro (h' | h')
      · exact hx h'.symm
      · exact h1 h'

theorem structureName_eq {key dir file stem rest : Str} (h : key = file ∧ dir = [] ∨ key = dir ++ '/' :: file)
    (hf : '/' ∉ file) (e : file = stem ++ rest) (hs : '.' ∉ stem) (hr : rest = [] ∨ ∃ r, rest = '.' :: r) :
    structureName key = stem ++ "_structure.json".toList := by
  have h1 : (splitC '/' key).getLast? = some file := by
    rcases h with ⟨rfl, _⟩ | rfl
    · rw [splitC_none _ _ hf]; rfl
    · exact last_split _ _ _ hf
  have h2 : (splitC '.' file).head? = some stem := by
    rcases hr with rfl | ⟨r, rfl⟩
    · rw [e, List.append_nil, splitC_none _ _ hs]; rfl
    · rw [e, splitC_append _ _ _ hs]; rfl
  unfold structureName
  rw [h1, Option.getD_some, h2, Option.getD_some]

theorem structuredAs_iff (output key t : Str) :
    StructuredAs output key t ↔ t = output ++ "/".toList ++ structureName key := by
  have hsl : ∀ x : Str, output ++ "/".toList ++ x = output ++ '/' :: x := fun x => by
    rw [List.append_assoc]; rfl
  constructor
  · rintro ⟨dir, file, stem, rest, h, hf, e, hs, hr, rfl⟩
    rw [structureName_eq h hf e hs hr, hsl]
  · rintro rfl
    obtain ⟨dir, file, hf, h⟩ := split_last key
    obtain ⟨stem, rest, e, hs, hr⟩ := split_first file
    exact ⟨dir, file, stem, rest, h, hf, e, hs, hr, by rw [structureName_eq h hf e hs hr, hsl]⟩

/-! ### listings -/

theorem isPrefixOf_eq (p s : Str) : p.isPrefixOf s = decide (p <+: s) := by
  rw [Bool.eq_iff_iff, List.isPrefixOf_iff_prefix, decide_eq_true_eq]

theorem listing_of_count {bucket : List Obj} {pre : Str} (h : count bucket pre ≤ 1000) :
    listing bucket pre = bucket.filter (fun o => pre.isPrefixOf o.key) := by
  unfold listing
  refine List.take_of_length_le ?_
  rw [← List.countP_eq_length_filter]
  unfold count at h
  simpa only [isPrefixOf_eq] using h

theorem mem_listing {bucket : List Obj} {pre : Str} {o : Obj} (h : o ∈ listing bucket pre) : o ∈ bucket ∧ pre <+: o.key := by
  have := List.mem_of_mem_take h
  rw [List.mem_filter, List.isPrefixOf_iff_prefix] at this
  exact this

theorem wanted_iff (o : Obj) : wanted o = true ↔ 1000 < o.size ∧ "PredictionDiagnostics".toList <:+: o.key ∧
    'x' ∉ o.key ∧ ¬ "Complete".toList <:+: o.key := by
  have hx : containsSub "x".toList o.key = true ↔ 'x' ∈ o.key := by
    rw [containsSub_iff]
    constructor
    · rintro ⟨a, b, e⟩
      rw [← e]
      simp
    · intro h
      obtain ⟨a, b, e⟩ := List.append_of_mem h
      exact ⟨a, b, by rw [e]; simp⟩
  unfold wanted
  rw [Bool.and_eq_true, Bool.and_eq_true, Bool.and_eq_true, decide_eq_true_eq, containsSub_iff, Bool.not_eq_true',
    Bool.not_eq_true', ← Bool.not_eq_true, ← Bool.not_eq_true, hx, containsSub_iff, and_assoc, and_assoc]

theorem unquote_quoted (h : Str) (hq : '"' ∉ h) : unquote ('"' :: (h ++ ['"'])) = h := by
  have drop : ∀ l : Str, '"' ∉ l → (l ++ ['"']).dropWhile (· = '"') = if l = [] then [] else l ++ ['"'] := by
    intro l hl
    cases l with
    | nil => rfl
    | cons c cs =>
      have : c ≠ '"' := fun e => hl (by simp [e])
      rw [if_neg (by simp), List.cons_append, List.dropWhile_cons, if_neg (by simpa using this)]
  have drop2 : ∀ l : Str, '"' ∉ l → l.dropWhile (· = '"') = l := by
    intro l hl
    cases l with
    | nil => rfl
    | cons c cs =>
      have : c ≠ '"' := fun e => hl (by simp [e])
      rw [List.dropWhile_cons, if_neg (by simpa using this)]
  unfold unquote
  rw [List.dropWhile_cons, if_pos (by simp), drop h hq]
  by_cases h0 : h = []
  · rw [if_pos h0, h0]; rfl
  · rw [if_neg h0, List.reverse_append, List.reverse_singleton, List.singleton_append, List.dropWhile_cons,
      if_pos (by simp), drop2 _ (by simpa using hq), List.reverse_reverse]

theorem describes_eventOf (o : Obj) : Describes (eventOf o) o :=
  ⟨rfl, rfl, rfl, fun h hq e => by show unquote o.etag = h; rw [e, unquote_quoted h hq]⟩

theorem scan_ok {now : Rat} {inB outB : List Obj} {pre output : Str} {es : List Event}
    (h : scan now inB outB pre output = .ok es) :
    es = (((listing inB pre).filter wanted).filter (isOld now outB output)).reverse.map eventOf := by
  unfold scan at h
  split at h
  · cases h
  · cases h; rfl

theorem mem_scan {now : Rat} {inB outB : List Obj} {pre output : Str} {es : List Event}
    (h : scan now inB outB pre output = .ok es) (e : Event) :
    e ∈ es ↔ ∃ o ∈ listing inB pre, wanted o = true ∧ isOld now outB output o = true ∧ e = eventOf o := by
  rw [scan_ok h]
  simp only [List.mem_map, List.mem_reverse, List.mem_filter]
  constructor
  · rintro ⟨o, ⟨⟨h1, h2⟩, h3⟩, rfl⟩; exact ⟨o, h1, h2, h3, rfl⟩
  · rintro ⟨o, h1, h2, h3, rfl⟩; exact ⟨o, ⟨⟨h1, h2⟩, h3⟩, rfl⟩

/-- one object of a bucket with different keys is alone in the listing of its own key, if no other key goes on from it -/
theorem listing_self {bucket : List Obj} (hd : Distinct bucket) {t : Str}
    (hp : ∀ s ∈ bucket, t <+: s.key → s.key = t) :
    (listing bucket t = [] ∧ ∀ s ∈ bucket, s.key ≠ t) ∨ ∃ s ∈ bucket, s.key = t ∧ listing bucket t = [s] := by
  have hf : bucket.filter (fun o => t.isPrefixOf o.key) = bucket.filter (fun o => decide (o.key = t)) := by
    refine List.filter_congr (fun s hs => ?_)
    rw [Bool.eq_iff_iff, List.isPrefixOf_iff_prefix, decide_eq_true_eq]
    exact ⟨hp s hs, fun h => h ▸ List.prefix_rfl⟩
  unfold listing
  rw [hf]
  clear hf hp
  unfold Distinct at hd
  induction bucket with
  | nil => exact Or.inl ⟨rfl, by simp⟩
  | cons s bs ih =>
    rw [List.map_cons, List.nodup_cons] at hd
    by_cases h : s.key = t
    · right
      refine ⟨s, by simp, h, ?_⟩
      have : bs.filter (fun o => decide (o.key = t)) = [] := by
        rw [List.filter_eq_nil_iff]
        intro o ho
        rw [decide_eq_true_eq]
        intro ho2
        exact hd.1 (List.mem_map.mpr ⟨o, ho, ho2.trans h.symm⟩)
      rw [List.filter_cons, if_pos (by simpa using h), this]
      rfl
    · rw [List.filter_cons, if_neg (by simpa using h)]
      rcases ih hd.2 with ⟨h1, h2⟩ | ⟨s', h1, h2, h3⟩
      · refine Or.inl ⟨h1, fun o ho => ?_⟩
        rcases List.mem_cons.mp ho with rfl | ho
        · exact h
        · exact h2 o ho
      · exact Or.inr ⟨s', List.mem_cons_of_mem _ h1, h2, h3⟩

theorem isOld_iff (now : Rat) {outB : List Obj} (hd : Distinct outB) (output : Str) (o : Obj)
    (hp : ∀ s ∈ outB, ∀ t, StructuredAs output o.key t → t <+: s.key → s.key = t) :
    isOld now outB output o = true ↔ ¬ Fresh now outB output o := by
  have ht : StructuredAs output o.key (output ++ "/".toList ++ structureName o.key) := (structuredAs_iff ..).mpr rfl
  unfold isOld
  have e : now - 6 * 3600 = now - 21600 := by norm_num
  rcases listing_self hd (fun s hs => hp s hs _ ht) with ⟨h1, h2⟩ | ⟨s, hs, hk, h1⟩
  · rw [h1]
    simp only [true_iff]
    rintro ⟨s, hs, hst, _⟩
    exact h2 s hs ((structuredAs_iff ..).mp hst)
  · rw [h1]
    simp only [decide_eq_true_eq, e]
    constructor
    · rintro hlt ⟨s', hs', hst', hle⟩
      have hk' := (structuredAs_iff ..).mp hst'
      have : s' ∈ listing outB (output ++ "/".toList ++ structureName o.key) := by
        have hm : s' ∈ outB.filter (fun x => (output ++ "/".toList ++ structureName o.key).isPrefixOf x.key) := by
          rw [List.mem_filter, List.isPrefixOf_iff_prefix, ← hk']
          exact ⟨hs', List.prefix_rfl⟩
        have hl := h1
        unfold listing at hl ⊢
        have hlen : (outB.filter (fun x => (output ++ "/".toList ++ structureName o.key).isPrefixOf x.key)).length ≤ 1000 := by
          by_contra hgt
          have := congrArg List.length hl
          rw [List.length_take, min_eq_left (by omega)] at this
          rw [List.length_singleton] at this
          omega
        rw [List.take_of_length_le hlen]
        exact hm
      rw [h1, List.mem_singleton] at this
      subst this
      exact absurd hlt (not_lt.mpr hle)
    · intro h
      by_contra hlt
      exact h ⟨s, hs, hk ▸ ht, not_lt.mp hlt⟩

/-! ### C158 -/

/-- C158.  If there are between one and 1000 objects at the location, no key holds the letter x, and no other object of
the output begins like the name of a structured file, then an event is put for exactly the raw files without a recent
structured file; there is one for each, it describes the file, and the events come in the opposite order of the files.
Missing: more than 1000 objects, keys with an x, structured files with companions, and that the script can be started;
see below. -/
theorem C158_queued_partial (now : Rat) (inB outB : List Obj) (pre output : Str) (hi : Distinct inB) (ho : Distinct outB)
    (h0 : 0 < count inB pre) (h1 : count inB pre ≤ 1000) (hx : ∀ o ∈ inB, 'x' ∉ o.key)
    (hp : ∀ o ∈ inB, ∀ s ∈ outB, ∀ t, StructuredAs output o.key t → t <+: s.key → s.key = t) :
    ∃ es, scan now inB outB pre output = .ok es ∧
      (∀ o ∈ inB, (∃ e ∈ es, Describes e o) ↔ Candidate pre o ∧ ¬ Fresh now outB output o) ∧
      (∀ e ∈ es, ∃ o ∈ inB, Describes e o) ∧
      (es.map Event.filename).Nodup ∧ (es.map Event.filename).reverse.Sublist (inB.map Obj.key) := by
  have hl := listing_of_count h1
  have hne : listing inB pre ≠ [] := by
    rw [hl]
    intro h
    have := congrArg List.length h
    rw [← List.countP_eq_length_filter] at this
    unfold count at h0
    simp only [isPrefixOf_eq, List.length_nil] at this
    omega
  have hok : ∃ es, scan now inB outB pre output = .ok es := by
    unfold scan
    split
    · rename_i h; exact absurd h hne
    · exact ⟨_, rfl⟩
  obtain ⟨es, hes⟩ := hok
  have hkeys : ∀ a ∈ inB, ∀ b ∈ inB, a.key = b.key → a = b := fun a ha b hb => List.inj_on_of_nodup_map hi ha hb
  have hsub : (es.map Event.filename).reverse.Sublist (inB.map Obj.key) := by
    rw [scan_ok hes, hl, List.map_map, ← List.map_reverse, List.reverse_reverse]
    show (List.map Obj.key _).Sublist _
    exact ((List.filter_sublist.trans List.filter_sublist).trans List.filter_sublist).map _
  refine ⟨es, hes, ?_, ?_, ?_, hsub⟩
  · intro o hoi
    have hold := isOld_iff now ho output o (hp o hoi)
    constructor
    · rintro ⟨e, he, hd⟩
      obtain ⟨o', h1', h2', h3', rfl⟩ := (mem_scan hes e).mp he
      have : o' = o := hkeys o' (mem_listing h1').1 o hoi hd.filename
      subst this
      obtain ⟨w1, w2, _, w4⟩ := (wanted_iff o').mp h2'
      exact ⟨⟨(mem_listing h1').2, w1, w2, w4⟩, hold.mp h3'⟩
    · rintro ⟨hc, hf⟩
      refine ⟨eventOf o, (mem_scan hes _).mpr ⟨o, ?_, (wanted_iff o).mpr ⟨hc.size, hc.project, hx o hoi, hc.running⟩,
        hold.mpr hf, rfl⟩, describes_eventOf o⟩
      rw [hl, List.mem_filter, List.isPrefixOf_iff_prefix]
      exact ⟨hoi, hc.place⟩
  · intro e he
    obtain ⟨o', h1', _, _, rfl⟩ := (mem_scan hes e).mp he
    exact ⟨o', (mem_listing h1').1, describes_eventOf o'⟩
  · exact List.nodup_reverse.mp (hsub.nodup hi)

/-- C158 fails: the script imports a class that does not exist, so that nothing is ever queued -/
theorem C158_import_violated (now : Rat) (inB outB : List Obj) (pre output : Str) :
    main now inB outB pre output = .error .attributeError := by
  have : importName "KinesisEvents" = .error .attributeError := by decide
  unfold main
  rw [this]
  rfl

/-- C158 fails: an empty location raises an error -/
theorem C158_empty_violated (now : Rat) (inB outB : List Obj) (pre output : Str) (h : ∀ o ∈ inB, ¬ pre <+: o.key) :
    scan now inB outB pre output = .error .keyError := by
  have : listing inB pre = [] := by
    rw [List.eq_nil_iff_forall_not_mem]
    intro o ho
    exact h o (mem_listing ho).1 (mem_listing ho).2
  unfold scan
  rw [this]

/-- C158 fails: of more than 1000 objects only the first 1000 are looked at -/
theorem C158_pages_violated (now : Rat) (first rest outB : List Obj) (pre output : Str) (hd : Distinct (first ++ rest))
    (hc : count first pre = 1000) (es : List Event) (h : scan now (first ++ rest) outB pre output = .ok es) :
    ∀ o ∈ rest, ¬ ∃ e ∈ es, Describes e o := by
  rintro o ho ⟨e, he, hde⟩
  obtain ⟨o', h1, _, _, rfl⟩ := (mem_scan h e).mp he
  have hk : o'.key = o.key := hde.filename
  have hlen : (first.filter (fun o => pre.isPrefixOf o.key)).length = 1000 := by
    rw [← List.countP_eq_length_filter]
    unfold count at hc
    simpa only [isPrefixOf_eq] using hc
  have h1' : o' ∈ first := by
    unfold listing at h1
    rw [List.filter_append, ← hlen, List.take_left'] at h1
    · exact (List.mem_filter.mp h1).1
    · rfl
  unfold Distinct at hd
  rw [List.map_append, List.nodup_append] at hd
  exact hd.2.2 o'.key (List.mem_map.mpr ⟨o', h1', rfl⟩) o.key (List.mem_map.mpr ⟨o, ho, rfl⟩) hk

/-- C158 fails: a file with the letter x anywhere in its key is never queued -/
theorem C158_letter_violated (now : Rat) (inB outB : List Obj) (pre output : Str) (es : List Event)
    (h : scan now inB outB pre output = .ok es) (o : Obj) (hx : 'x' ∈ o.key) : ¬ ∃ e ∈ es, Describes e o := by
  rintro ⟨e, he, hd⟩
  obtain ⟨o', _, h2, _, rfl⟩ := (mem_scan h e).mp he
  have hk : o'.key = o.key := hd.filename
  exact ((wanted_iff o').mp h2).2.2.1 (hk ▸ hx)

/-- C158 fails: a raw file whose recent structured file has a companion, such as a compressed copy, is queued -/
theorem C158_companion_violated (now : Rat) (inB outB : List Obj) (pre output : Str) (hi : count inB pre ≤ 1000)
    (o : Obj) (ho : o ∈ inB) (hc : Candidate pre o) (hx : 'x' ∉ o.key) (t : Str) (ht : StructuredAs output o.key t)
    (s c : Obj) (hs : [s, c].Sublist outB) (hsk : s.key = t) (hck : t <+: c.key) (hfresh : now - 21600 ≤ s.modified) :
    Fresh now outB output o ∧ ∃ es, scan now inB outB pre output = .ok es ∧ ∃ e ∈ es, Describes e o := by
  have hsm : s ∈ outB := hs.subset (by simp)
  refine ⟨⟨s, hsm, hsk ▸ ht, hfresh⟩, ?_⟩
  have hl : o ∈ listing inB pre := by
    rw [listing_of_count hi, List.mem_filter, List.isPrefixOf_iff_prefix]
    exact ⟨ho, hc.place⟩
  have hok : ∃ es, scan now inB outB pre output = .ok es := by
    unfold scan
    split
    · rename_i h; rw [h] at hl; simp at hl
    · exact ⟨_, rfl⟩
  obtain ⟨es, hes⟩ := hok
  refine ⟨es, hes, eventOf o, (mem_scan hes _).mpr ⟨o, hl, (wanted_iff o).mpr ⟨hc.size, hc.project, hx, hc.running⟩, ?_, rfl⟩,
    describes_eventOf o⟩
  rw [structuredAs_iff] at ht
  unfold isOld
  rw [← ht]
  have hlen : 2 ≤ (listing outB t).length := by
    unfold listing
    rw [List.length_take]
    have h2 : ([s, c].filter (fun x => t.isPrefixOf x.key)).Sublist (outB.filter (fun x => t.isPrefixOf x.key)) := hs.filter _
    have h3 : [s, c].filter (fun x => t.isPrefixOf x.key) = [s, c] := by
      rw [List.filter_eq_self]
      intro x hx
      rw [List.isPrefixOf_iff_prefix]
      simp only [List.mem_cons, List.not_mem_nil, or_false] at hx
      rcases hx with rfl | rfl
      · rw [hsk]; exact List.prefix_rfl
      · exact hck
    rw [h3] at h2
    have := h2.length_le
    simp only [List.length_cons, List.length_nil] at this
    omega
  rcases hll : listing outB t with _ | ⟨a, _ | ⟨b, l⟩⟩
  · rfl
  · rw [hll] at hlen; simp at hlen
  · rfl

/-- C158 fails: two raw files that agree up to their first dot share a structured file, so that one that was never
structured counts as fresh.  The property means the structured file of the raw file itself. -/
theorem C158_shared_violated (now : Rat) (inB outB : List Obj) (pre output : Str) (ho : Distinct outB) (o o' : Obj)
    (dir stem r r' : Str) (hs : '.' ∉ stem) (hr : '/' ∉ stem ++ '.' :: r) (hr' : '/' ∉ stem ++ '.' :: r')
    (hk : o.key = dir ++ '/' :: (stem ++ '.' :: r)) (hk' : o'.key = dir ++ '/' :: (stem ++ '.' :: r'))
    (s : Obj) (hsm : s ∈ outB) (hst : StructuredAs output o.key s.key)
    (hone : ∀ x ∈ outB, s.key <+: x.key → x.key = s.key) (hfresh : now - 21600 ≤ s.modified)
    (es : List Event) (h : scan now inB outB pre output = .ok es) : ¬ ∃ e ∈ es, Describes e o' := by
  rintro ⟨e, he, hd⟩
  obtain ⟨q, _, _, h3, rfl⟩ := (mem_scan h e).mp he
  have hq : q.key = o'.key := hd.filename
  have hst' : StructuredAs output q.key s.key := by
    rw [structuredAs_iff] at hst ⊢
    rw [hst, hq, structureName_eq (Or.inr hk) hr rfl hs (Or.inr ⟨r, rfl⟩),
      structureName_eq (Or.inr hk') hr' rfl hs (Or.inr ⟨r', rfl⟩)]
  have := (isOld_iff now ho output q (fun x hx t ht hp => by
    have : t = s.key := by rw [(structuredAs_iff ..).mp ht, (structuredAs_iff ..).mp hst']
    subst this
    exact hone x hx hp)).mp h3
  exact this ⟨s, hsm, hst', hfresh⟩

/-! ### an example -/

/-- a raw file -/
def exRaw (n : String) : Obj :=
  { key := "d3Batt/raw/arbin/PredictionDiagnostics_".toList ++ n.toList ++ "_CH1.csv".toList, size := 5000,
    etag := "\"abc\"".toList, modified := 0 }

/-- its structured file, changed at a given time -/
def exOut (n : String) (t : Rat) : Obj :=
  { key := "d3Batt/structure/PredictionDiagnostics_".toList ++ n.toList ++ "_CH1_structure.json".toList, size := 5000,
    etag := "\"def\"".toList, modified := t }

/-- of three files, one structured recently, one long ago and one never, two are queued, last file first -/
example : (scan 100000 [exRaw "000001", exRaw "000002", exRaw "000003"] [exOut "000001" 99000, exOut "000002" 5]
    "d3Batt/raw/arbin".toList "d3Batt/structure".toList).map (List.map (fun e => (e.filename, e.hash))) =
    .ok [((exRaw "000003").key, "abc".toList), ((exRaw "000002").key, "abc".toList)] := by decide +kernel

/-- and they meet the conditions of the theorem -/
example : Distinct [exRaw "000001", exRaw "000002", exRaw "000003"] ∧ Distinct [exOut "000001" 99000, exOut "000002" 5] ∧
    count [exRaw "000001", exRaw "000002", exRaw "000003"] "d3Batt/raw/arbin".toList = 3 ∧
    (∀ o ∈ [exRaw "000001", exRaw "000002", exRaw "000003"], 'x' ∉ o.key) ∧
    (∀ o ∈ [exRaw "000001", exRaw "000002", exRaw "000003"], ∀ s ∈ [exOut "000001" 99000, exOut "000002" 5],
      ∀ t, StructuredAs "d3Batt/structure".toList o.key t → t <+: s.key → s.key = t) := by
  refine ⟨by unfold Distinct; decide +kernel, by unfold Distinct; decide +kernel, by decide +kernel, by decide +kernel, ?_⟩
  intro o ho s hs t ht
  rw [structuredAs_iff] at ht
  subst ht
  revert o s
  decide +kernel

end Beep.Props.Retrigger
