import Verif.Proof.Eis
import Verif.Props.Ingest
/-
C130 reading impedance spectra, C131 finding and loading them.
-/
namespace Beep.Props.Eis
open Beep Text Ingest Beep.Eis Spec.Eis Spec.Ingest Proof.Ingest Proof.Eis
open Beep.Props.Ingest (trimmed_strip strip_trimmed lstrip_split)

/-! ### C130 -/

theorem strip_inner (a u b : Str) (ha : ∀ c ∈ a, isWs c = true) (hb : ∀ c ∈ b, isWs c = true) :
    strip (a ++ u ++ b) = strip u := by
  obtain ⟨a', b', e, ha', hb', h1, h2⟩ := strip_trimmed u
  refine trimmed_strip _ _ ⟨a ++ a', b' ++ b, ?_, ?_, ?_, h1, h2⟩
  · rw [congrArg (fun x => a ++ x ++ b) e]; simp
  · intro c hc; rcases List.mem_append.mp hc with hc | hc; exact ha c hc; exact ha' c hc
  · intro c hc; rcases List.mem_append.mp hc with hc | hc; exact hb' c hc; exact hb c hc

theorem rstrip_split (v : Str) : ∃ b, v = rstrip v ++ b ∧ (∀ c ∈ b, isWs c = true) ∧
    ∀ c, (rstrip v).getLast? = some c → isWs c = false := by
  obtain ⟨a, e, ha, hh⟩ := lstrip_split v.reverse
  refine ⟨a.reverse, ?_, by simpa using ha, ?_⟩
  · have := congrArg List.reverse e
    rw [List.reverse_append, List.reverse_reverse] at this
    rw [rstrip_eq]; exact this
  · intro c hc
    rw [rstrip_eq, List.getLast?_reverse] at hc
    exact hh c hc

theorem strip_around (d m t : Str) (hm : m ≠ []) (h1 : ∀ c, m.head? = some c → isWs c = false)
    (h2 : ∀ c, m.getLast? = some c → isWs c = false) : strip (d ++ m ++ t) = lstrip d ++ m ++ rstrip t := by
  obtain ⟨a, ea, ha, hh⟩ := lstrip_split d
  obtain ⟨b, eb, hb, hl⟩ := rstrip_split t
  refine trimmed_strip _ _ ⟨a, b, ?_, ha, hb, ?_, ?_⟩
  · rw [congrArg₂ (fun x y => x ++ m ++ y) ea eb]; simp
  · intro c hc
    cases hd : lstrip d with
    | nil =>
      rw [hd] at hc
      cases m with
      | nil => exact absurd rfl hm
      | cons x xs => exact h1 c (by simpa using hc)
    | cons x xs => rw [hd] at hc; exact hh c (by rw [hd]; simpa using hc)
  · intro c hc
    rw [List.getLast?_append] at hc
    cases ht : (rstrip t).getLast? with
    | some x => rw [ht] at hc; simp at hc; exact hl c (by rw [ht, hc])
    | none =>
      rw [ht, Option.none_or, List.getLast?_append] at hc
      cases hm' : m.getLast? with
      | none => exact absurd (List.getLast?_eq_none_iff.mp hm') hm
      | some x => rw [hm'] at hc; simp at hc; exact h2 c (by rw [hm', hc])

theorem splitStr_once {sep s a b : Str} (hne : sep ≠ []) (e : s = a ++ sep ++ b) (h : Once sep s) :
    splitStr sep s = [a, b] := by
  obtain ⟨a0, b0, e0, hu⟩ := h
  have ha : a = a0 := hu a b e
  have := unpack2_once sep hne s a b e (fun a' b' e' => by rw [ha]; exact hu a' b' e')
  unfold unpack2 at this
  split at this
  · rename_i x y hxy
    simp only [Except.ok.injEq, Prod.mk.injEq] at this
    rw [hxy, this.1, this.2]
  · cases this

theorem after_once {sep s a b w : Str} (hne : sep ≠ []) (e : s = a ++ sep ++ b) (h : Once sep s) (ht : Trimmed b w) :
    after sep s = .ok w := by
  unfold after
  rw [splitStr_once hne e h]
  simp [trimmed_strip _ _ ht]

/-- the date and the time of the start, for any two labels without blanks at their ends -/
theorem start_once {L1 L2 l c d t d' t' : Str} (h1 : L1 ≠ []) (h2 : L2 ≠ []) (e : l = c ++ L1 ++ (d ++ L2 ++ t))
    (o1 : Once L1 l) (o2 : Once L2 l) (hd : Trimmed d d') (ht : Trimmed t t')
    (w1 : ∀ x, L2.head? = some x → isWs x = false) (w2 : ∀ x, L2.getLast? = some x → isWs x = false) :
    ∃ x date time, after L1 l = .ok x ∧ unpack2 L2 x = .ok (date, time) ∧ strip date = d' ∧ strip time = t' := by
  have e1 := splitStr_once h1 e o1
  obtain ⟨a, ea, ha, _⟩ := lstrip_split d
  obtain ⟨b, eb, hb, _⟩ := rstrip_split t
  refine ⟨lstrip d ++ L2 ++ rstrip t, lstrip d, rstrip t, ?_, ?_, ?_, ?_⟩
  · unfold after
    rw [e1]
    simp only [List.getElem?_cons_succ, List.getElem?_cons_zero]
    rw [strip_around d L2 t h2 w1 w2]
  · obtain ⟨a0, b0, e0, hu⟩ := o2
    refine unpack2_once L2 h2 _ _ _ rfl ?_
    intro p q hpq
    have k1 : c ++ L1 ++ d = a0 := hu _ t (by rw [e]; simp)
    have k2 : c ++ L1 ++ (a ++ p) = a0 := by
      refine hu _ (q ++ b) ?_
      have : d ++ L2 ++ t = a ++ (lstrip d ++ L2 ++ rstrip t) ++ b := by
        rw [congrArg₂ (fun x y => x ++ L2 ++ y) ea eb]; simp
      rw [e, this, hpq]; simp
    have k3 : d = a ++ p := by
      have := k1.trans k2.symm
      exact List.append_cancel_left this
    rw [ea] at k3
    exact (List.append_cancel_left k3).symm
  · have : strip (lstrip d) = strip d := by
      have := strip_inner a (lstrip d) [] ha (by simp)
      rw [List.append_nil, ← ea] at this
      exact this.symm
    rw [this]; exact trimmed_strip _ _ hd
  · have : strip (rstrip t) = strip t := by
      have := strip_inner [] (rstrip t) b (by simp) hb
      rw [List.nil_append, ← eb] at this
      exact this.symm
    rw [this]; exact trimmed_strip _ _ ht

theorem startTime_ends : "Start Time:".toList ≠ [] ∧ (∀ x, "Start Time:".toList.head? = some x → isWs x = false) ∧
    (∀ x, "Start Time:".toList.getLast? = some x → isWs x = false) := by
  refine ⟨by decide, ?_, ?_⟩
  · intro x hx
    have : x = 'S' := by
      have e : "Start Time:".toList.head? = some 'S' := by decide
      rw [e] at hx; exact (Option.some.inj hx).symm
    subst this; decide
  · intro x hx
    have : x = ':' := by
      have e : "Start Time:".toList.getLast? = some ':' := by decide
      rw [e] at hx; exact (Option.some.inj hx).symm
    subst this; decide

/-- C130: a file whose second line has the frequency sweep and whose seventh line has the start, each
label at one place, gives the sweep with the spelling of "circuit" put right, the start read from
"date,time", the words of the ninth line and the table that begins in the eleventh.
Missing: the third and the fourth line are given as they stand, with the end of the line. -/
theorem C130_read_partial {T : Type} (strptime : Str → Except Err Str) (readCsv : List Str → Except Err T)
    (lines : List Str) (l1 l2 l3 l6 l8 : Str)
    (h1 : lines[1]? = some l1) (h2 : lines[2]? = some l2) (h3 : lines[3]? = some l3) (h6 : lines[6]? = some l6)
    (h8 : lines[8]? = some l8) (a b b' : Str) (e1 : l1 = a ++ "Frequency Sweep:".toList ++ b)
    (o1 : Once "Frequency Sweep:".toList l1) (hb : Trimmed b b') (c d t d' t' : Str)
    (e6 : l6 = c ++ "Start Date:".toList ++ (d ++ "Start Time:".toList ++ t)) (o6 : Once "Start Date:".toList l6)
    (o6' : Once "Start Time:".toList l6) (hd : Trimmed d d') (ht : Trimmed t t') (iso : Str)
    (hiso : strptime (d' ++ ',' :: t') = .ok iso) (data : T) (hdata : readCsv (lines.drop 10) = .ok data) :
    ∃ s, fromFile strptime readCsv lines = .ok s ∧ s.data = data ∧
      Replaced "Circut".toList "Circuit".toList b' s.header.frequencySweep ∧ s.header.method = l2 ∧
      s.header.filename = l3 ∧ s.header.start = iso ∧ Words l8 s.header.line8 := by
  obtain ⟨x, date, time, k1, k2, k3, k4⟩ := start_once (L1 := "Start Date:".toList) (by decide) startTime_ends.1 e6 o6 o6'
    hd ht startTime_ends.2.1 startTime_ends.2.2
  have hstart : startOf strptime l6 = .ok iso := by
    unfold startOf
    rw [k1]
    simp only
    rw [k2]
    simp only
    rw [k3, k4]
    simpa [join] using hiso
  have hsweep := after_once (by decide) e1 o1 hb
  have hhead : header strptime lines = .ok ⟨replaceStr "Circut".toList "Circuit".toList b', l2, l3, iso, words l8⟩ := by
    unfold Beep.Eis.header line
    rw [h1, h2, h3, h6, h8]
    simp only [bind, Except.bind]
    rw [hsweep]
    simp only
    rw [hstart]
  refine ⟨⟨data, ⟨replaceStr "Circut".toList "Circuit".toList b', l2, l3, iso, words l8⟩⟩, ?_, rfl, ?_, rfl, rfl, rfl, words_words l8⟩
  · unfold fromFile
    rw [hhead]
    simp only [bind, Except.bind]
    rw [hdata]
  · exact replaceStr_replaced _ _ (by decide) _ b' (le_refl _)

theorem header_ok {strptime : Str → Except Err Str} {lines : List Str} {h : Header}
    (hh : header strptime lines = .ok h) :
    lines[2]? = some h.method ∧ lines[3]? = some h.filename ∧ 8 < lines.length := by
  unfold Beep.Eis.header line at hh
  rcases g1 : lines[1]? with _ | l1
  · rw [g1] at hh; cases hh
  rw [g1] at hh
  simp only [bind, Except.bind] at hh
  generalize after "Frequency Sweep:".toList l1 = r1 at hh
  rcases r1 with e | sweep
  · cases hh
  simp only at hh
  rcases g2 : lines[2]? with _ | l2
  · rw [g2] at hh; cases hh
  rw [g2] at hh
  simp only at hh
  rcases g3 : lines[3]? with _ | l3
  · rw [g3] at hh; cases hh
  rw [g3] at hh
  simp only at hh
  rcases g6 : lines[6]? with _ | l6
  · rw [g6] at hh; cases hh
  rw [g6] at hh
  simp only at hh
  generalize startOf strptime l6 = r6 at hh
  rcases r6 with e | st
  · cases hh
  simp only at hh
  rcases g8 : lines[8]? with _ | l8
  · rw [g8] at hh; cases hh
  rw [g8] at hh
  simp only [Except.ok.injEq] at hh
  subst hh
  exact ⟨rfl, rfl, (List.getElem?_eq_some_iff.mp g8).1⟩

theorem fromFile_ok {T : Type} {strptime : Str → Except Err Str} {readCsv : List Str → Except Err T}
    {lines : List Str} {s : Spectrum T} (h : fromFile strptime readCsv lines = .ok s) :
    header strptime lines = .ok s.header ∧ readCsv (lines.drop 10) = .ok s.data := by
  unfold fromFile at h
  rcases g : header strptime lines with e | hd
  · rw [g] at h; cases h
  rw [g] at h
  simp only [bind, Except.bind] at h
  rcases g2 : readCsv (lines.drop 10) with e | data
  · rw [g2] at h; cases h
  rw [g2] at h
  simp only [Except.ok.injEq] at h
  subst h
  exact ⟨rfl, rfl⟩

/-- C130: nothing is read from a file of fewer than nine lines -/
theorem C130_short {T : Type} (strptime : Str → Except Err Str) (readCsv : List Str → Except Err T)
    (lines : List Str) (hl : lines.length < 9) : ∃ e, fromFile strptime readCsv lines = .error e := by
  rcases h : fromFile strptime readCsv lines with e | s
  · exact ⟨e, rfl⟩
  · have := (header_ok (fromFile_ok h).1).2.2
    omega

/-- C130 fails: the method and the name of the file keep the end of their line -/
theorem C130_line_end_violated {T : Type} (strptime : Str → Except Err Str) (readCsv : List Str → Except Err T)
    (lines : List Str) (s : Spectrum T) (v w : Str) (h : fromFile strptime readCsv lines = .ok s)
    (h2 : lines[2]? = some (v ++ ['\n'])) (h3 : lines[3]? = some (w ++ ['\n'])) :
    s.header.method = v ++ ['\n'] ∧ s.header.filename = w ++ ['\n'] ∧
      ¬ Trimmed (v ++ ['\n']) s.header.method ∧ ¬ Trimmed (w ++ ['\n']) s.header.filename := by
  obtain ⟨k2, k3, _⟩ := header_ok (fromFile_ok h).1
  rw [h2] at k2; rw [h3] at k3
  have m2 : s.header.method = v ++ ['\n'] := (Option.some.inj k2).symm
  have m3 : s.header.filename = w ++ ['\n'] := (Option.some.inj k3).symm
  refine ⟨m2, m3, ?_, ?_⟩
  · rintro ⟨_, _, _, _, _, _, hlast⟩
    have := hlast '\n' (by rw [m2]; simp)
    revert this; decide
  · rintro ⟨_, _, _, _, _, _, hlast⟩
    have := hlast '\n' (by rw [m3]; simp)
    revert this; decide

/-- C130 fails: no spectrum that was read from a file can be written as a dictionary -/
theorem C130_dictionary_violated {T F : Type} (strptime : Str → Except Err Str) (readCsv : List Str → Except Err T)
    (lines : List Str) (s : Spectrum T) (_h : fromFile strptime readCsv lines = .ok s) :
    asDict s.data (metaOf (F := F) s) = .error .attributeError := rfl

/-- a small file -/
def sampleFile : List Str :=
  ["Maccor\n".toList, "Frequency Sweep: Open Circut, 10 mV\n".toList, "Potentiostatic\n".toList, "run.EIS1.078\n".toList,
   "\n".toList, "\n".toList, "Start Date: Friday, May 01, 2020  Start Time: 07:30\n".toList, "\n".toList,
   " 5  points ok\n".toList, "\n".toList, "f\tz\n".toList, "1\t2\n".toList]

set_option maxRecDepth 100000 in
/-- the hypotheses are met -/
example : fromFile (fun s => .ok s) (fun ls => .ok ls) sampleFile =
    .ok ⟨["f\tz\n".toList, "1\t2\n".toList],
      ⟨"Open Circuit, 10 mV".toList, "Potentiostatic\n".toList, "run.EIS1.078\n".toList,
       "Friday, May 01, 2020,07:30".toList, ["5".toList, "points".toList, "ok".toList]⟩⟩ := by decide +kernel

/-! ### C131 -/

theorem readAll_iff {T : Type} {strptime : Str → Except Err Str} {readCsv : List Str → Except Err T}
    {disk : List (Str × List Str)} {ps : List Str} {ss : List (Spectrum T)} :
    readAll strptime readCsv disk ps = .ok ss ↔
      List.Forall₂ (fun p s => readPath strptime readCsv disk p = .ok s) ps ss := by
  induction ps generalizing ss with
  | nil => simp [readAll, eq_comm]
  | cons p ps ih =>
    rw [readAll]
    rcases hp : readPath strptime readCsv disk p with e | s
    · constructor
      · intro h; cases h
      · intro h; cases h with | cons h1 _ => rw [hp] at h1; cases h1
    · simp only
      rcases hr : readAll strptime readCsv disk ps with e | ss'
      · constructor
        · intro h; cases h
        · intro h
          cases h with | cons h1 h2 => rw [ih.mpr h2] at hr; cases hr
      · simp only [Except.ok.injEq]
        constructor
        · rintro rfl; exact List.Forall₂.cons hp (ih.mp hr)
        · intro h
          cases h with
          | cons h1 h2 =>
            rw [hp] at h1; cases h1
            rw [ih.mpr h2] at hr; cases hr; rfl

theorem readAll_error {T : Type} {strptime : Str → Except Err Str} {readCsv : List Str → Except Err T}
    {disk : List (Str × List Str)} {ps : List Str} {e : Err} (h : readAll strptime readCsv disk ps = .error e) :
    ∃ p ∈ ps, readPath strptime readCsv disk p = .error e := by
  induction ps with
  | nil => cases h
  | cons p ps ih =>
    rw [readAll] at h
    rcases hp : readPath strptime readCsv disk p with e' | s
    · rw [hp] at h; cases h; exact ⟨p, by simp, hp⟩
    · rw [hp] at h
      simp only at h
      rcases hr : readAll strptime readCsv disk ps with e' | ss
      · rw [hr] at h; cases h
        obtain ⟨q, hq, hq'⟩ := ih hr
        exact ⟨q, by simp [hq], hq'⟩
      · rw [hr] at h; cases h

/-- C131: loading the spectra of listed paths gives one spectrum for each path, in their order, and
records the paths; it succeeds exactly when every path can be read -/
theorem C131_listed {T : Type} (strptime : Str → Except Err Str) (readCsv : List Str → Except Err T)
    (disk : List (Str × List Str)) (raw : Str) (st : State T) (ps : List Str) (hne : ps ≠ []) (st' : State T) :
    loadEis strptime readCsv disk raw st (.list ps) = (st', none) ↔
      ∃ ss, List.Forall₂ (fun p s => readPath strptime readCsv disk p = .ok s) ps ss ∧ st'.eis = some ss ∧
        st'.eisPaths = some ps := by
  have hc : chosen disk raw (.list ps) = ps := by
    cases ps with
    | nil => exact absurd rfl hne
    | cons p ps => rfl
  unfold loadEis
  rw [hc]
  constructor
  · intro h
    rcases hr : readAll strptime readCsv disk ps with e | ss
    · rw [hr] at h; cases h
    · rw [hr] at h
      simp only [Prod.mk.injEq, and_true] at h
      subst h
      exact ⟨ss, readAll_iff.mp hr, rfl, rfl⟩
  · rintro ⟨ss, hf, h1, h2⟩
    rw [readAll_iff.mpr hf]
    cases st'
    simp only at h1 h2
    rw [h1, h2]

/-- C131: when a file cannot be read the error is that of one of the paths, and the datapath is left
as it was -/
theorem C131_unchanged {T : Type} (strptime : Str → Except Err Str) (readCsv : List Str → Except Err T)
    (disk : List (Str × List Str)) (raw : Str) (st st' : State T) (paths : Paths) (e : Err)
    (h : loadEis strptime readCsv disk raw st paths = (st', some e)) :
    st' = st ∧ ∃ p ∈ chosen disk raw paths, readPath strptime readCsv disk p = .error e := by
  unfold loadEis at h
  rcases hr : readAll strptime readCsv disk (chosen disk raw paths) with e' | ss
  · rw [hr] at h
    simp only [Prod.mk.injEq, Option.some.injEq] at h
    obtain ⟨rfl, rfl⟩ := h
    exact ⟨rfl, readAll_error hr⟩
  · rw [hr] at h; cases h

/-- C131: without paths, the files looked at are exactly those named like the run with something more
before the extension.
Missing: runs without an extension, and paths with characters that mean something in patterns. -/
theorem C131_found_partial {T : Type} (strptime : Str → Except Err Str) (readCsv : List Str → Except Err T)
    (disk : List (Str × List Str)) (raw stem ext : Str) (hx : Extended raw stem ext) (hp : Plain raw)
    (st st' : State T) (h : loadEis strptime readCsv disk raw st .none = (st', none)) :
    ∃ ps ss, st'.eisPaths = some ps ∧ st'.eis = some ss ∧
      (∀ p, p ∈ ps ↔ p ∈ disk.map Prod.fst ∧ SpectrumOf raw p) ∧
      List.Forall₂ (fun p s => readPath strptime readCsv disk p = .ok s) ps ss := by
  unfold loadEis at h
  rcases hr : readAll strptime readCsv disk (chosen disk raw .none) with e' | ss
  · rw [hr] at h; cases h
  rw [hr] at h
  simp only [Prod.mk.injEq, and_true] at h
  subst h
  refine ⟨_, ss, rfl, rfl, ?_, readAll_iff.mp hr⟩
  intro p
  have hc : chosen disk raw .none = glob (eisPattern raw) (disk.map Prod.fst) := rfl
  rw [hc, glob_iff raw stem ext _ hx hp]
  refine and_congr_right (fun _ => ?_)
  constructor
  · rintro ⟨mid, hm, e⟩; exact ⟨stem, ext, mid, hx, hm, e⟩
  · rintro ⟨stem', ext', mid, ⟨e', hd', _⟩, hm, e⟩
    obtain ⟨e0, hd0, _⟩ := hx
    have hext : ext = ext' ∧ stem = stem' := by
      have h1 : split1 '.' raw.reverse = (ext.reverse, some stem.reverse) := by
        have : raw.reverse = ext.reverse ++ '.' :: stem.reverse := by rw [e0]; simp
        rw [this, split1_append _ _ _ (by simpa using hd0)]
      have h2 : split1 '.' raw.reverse = (ext'.reverse, some stem'.reverse) := by
        have : raw.reverse = ext'.reverse ++ '.' :: stem'.reverse := by rw [e']; simp
        rw [this, split1_append _ _ _ (by simpa using hd')]
      rw [h1] at h2
      simpa using h2
    exact ⟨mid, hm, by rw [hext.1, hext.2]; exact e⟩

/-- C131 fails: with brackets in the name of the run its spectrum is missed, and one of another run
is taken for it -/
theorem C131_bracket_violated :
    chosen [("d/run[1].078".toList, []), ("d/run[1].EIS1.078".toList, []), ("d/run1.EIS1.078".toList, [])]
      "d/run[1].078".toList .none = ["d/run1.EIS1.078".toList] ∧
    SpectrumOf "d/run[1].078".toList "d/run[1].EIS1.078".toList ∧
    ¬ SpectrumOf "d/run[1].078".toList "d/run1.EIS1.078".toList := by
  refine ⟨by decide +kernel, ⟨"d/run[1]".toList, "078".toList, "EIS1".toList, ?_, by decide, by decide⟩, ?_⟩
  · exact ⟨by decide, by decide, by decide⟩
  · rintro ⟨stem, ext, mid, ⟨e, hd, _⟩, _, e2⟩
    have h1 : split1 '.' "d/run[1].078".toList.reverse = (ext.reverse, some stem.reverse) := by
      have : "d/run[1].078".toList.reverse = ext.reverse ++ '.' :: stem.reverse := by rw [e]; simp
      rw [this, split1_append _ _ _ (by simpa using hd)]
    have h2 : split1 '.' "d/run[1].078".toList.reverse = ("870".toList, some "]1[nur/d".toList) := by decide
    rw [h2] at h1
    simp only [Prod.mk.injEq, Option.some.injEq] at h1
    have hs : stem = "d/run[1]".toList := by
      have := congrArg List.reverse h1.2
      simp only [List.reverse_reverse] at this
      rw [← this]; decide
    subst hs
    have := congrArg (fun l => l[5]?) e2
    revert this
    show ¬ (some '1' = some '[')
    decide

/-- the name of a spectrum of a run whose name ends in a given character -/
def spectrumName (c : Char) : Str := "run".toList ++ c :: ".EIS1.078".toList

theorem splitC_name (c : Char) (h : c ≠ '/') : splitC '/' (spectrumName c) = [spectrumName c] := by
  refine splitC_none _ _ ?_
  unfold spectrumName
  rw [List.mem_append, List.mem_cons]
  rintro (h1 | h1 | h1)
  · revert h1; decide
  · exact h h1.symm
  · revert h1; decide

theorem fits_name (t : Tok) (ht : t ≠ .star) (c : Char) :
    fits ((Tok.lit 'r') :: (.lit 'u') :: (.lit 'n') :: t :: (.lit '.') :: .star :: (".078".toList.map Tok.lit)) (spectrumName c) = t.hits c := by
  have : spectrumName c = 'r' :: 'u' :: 'n' :: c :: ".EIS1.078".toList := rfl
  rw [this]
  have e : fits ((.lit '.') :: .star :: (".078".toList.map Tok.lit)) ".EIS1.078".toList = true := by decide +kernel
  cases t with
  | star => exact absurd rfl ht
  | _ => simp only [fits, e, Bool.and_true]; simp [Tok.hits]

theorem class_chosen (raw : Str) (t : Tok) (ht : t ≠ .star) (hr : splitC '/' (eisPattern raw) = [eisPattern raw])
    (hp : toks 0 (eisPattern raw) = (Tok.lit 'r') :: (.lit 'u') :: (.lit 'n') :: t :: (.lit '.') :: .star :: (".078".toList.map Tok.lit))
    (c : Char) (hc : c ≠ '/') : spectrumName c ∈ chosen [(spectrumName c, [])] raw .none ↔ t.hits c = true := by
  show spectrumName c ∈ glob _ _ ↔ _
  unfold glob
  rw [hr]
  simp only [List.map_cons, List.map_nil, List.mem_filter, List.mem_singleton, true_and]
  rw [splitC_name c hc]
  simp only [partsFit, Bool.and_true, partFits, hp, fits_name t ht c]
  have : (spectrumName c).head? = some 'r' := rfl
  rw [this]
  simp

/-- C131 fails: brackets in the name of a run are read as a set of characters, also when the set begins
with a bracket, is negated or is a range; the spectra of other runs are found -/
theorem C131_class_violated (c : Char) (hc : c ≠ '/') :
    (spectrumName c ∈ chosen [(spectrumName c, [])] "run[]].078".toList .none ↔ c = ']') ∧
    (spectrumName c ∈ chosen [(spectrumName c, [])] "run[!]].078".toList .none ↔ c ≠ ']') ∧
    (spectrumName c ∈ chosen [(spectrumName c, [])] "run[!x].078".toList .none ↔ c ≠ 'x') ∧
    (spectrumName c ∈ chosen [(spectrumName c, [])] "run[x!].078".toList .none ↔ c = 'x' ∨ c = '!') ∧
    (spectrumName c ∈ chosen [(spectrumName c, [])] "run[2-4].078".toList .none ↔ '2' ≤ c ∧ c ≤ '4') := by
  have le : ∀ a b : Char, (a ≤ b ∧ b ≤ a) ↔ b = a := fun a b => ⟨fun h => Char.le_antisymm h.2 h.1, fun h => h ▸ ⟨Char.le_refl _, Char.le_refl _⟩⟩
  refine ⟨?_, ?_, ?_, ?_, ?_⟩
  · rw [class_chosen _ (.set false [(']', ']')]) (by simp) (by decide +kernel) (by decide +kernel) c hc]
    simp [Tok.hits, le]
  · rw [class_chosen _ (.set true [(']', ']')]) (by simp) (by decide +kernel) (by decide +kernel) c hc]
    rw [ne_eq, ← le]
    simp only [Tok.hits, List.any_cons, List.any_nil, Bool.or_false, bne_iff_ne, ne_eq, Bool.and_eq_true, decide_eq_true_eq]
  · rw [class_chosen _ (.set true [('x', 'x')]) (by simp) (by decide +kernel) (by decide +kernel) c hc]
    rw [ne_eq, ← le]
    simp only [Tok.hits, List.any_cons, List.any_nil, Bool.or_false, bne_iff_ne, ne_eq, Bool.and_eq_true, decide_eq_true_eq]
  · rw [class_chosen _ (.set false [('x', 'x'), ('!', '!')]) (by simp) (by decide +kernel) (by decide +kernel) c hc]
    simp [Tok.hits, le]
  · rw [class_chosen _ (.set false [('2', '4')]) (by simp) (by decide +kernel) (by decide +kernel) c hc]
    simp [Tok.hits]
/-- C131 fails: for a run whose path has no dot, its own file is read as a spectrum -/
theorem C131_no_dot_violated (disk : List (Str × List Str)) (raw : Str) (hd : '.' ∉ raw) (hp : Plain raw)
    (hm : raw ∈ disk.map Prod.fst) :
    ∀ p, p ∈ chosen disk raw .none ↔ p = raw := by
  intro p
  have hpat : eisPattern raw = raw := by
    unfold eisPattern rsplitDot
    have : split1 '.' raw.reverse = (raw.reverse, none) := by
      have hr : '.' ∉ raw.reverse := by simpa using hd
      generalize raw.reverse = s at hr
      induction s with
      | nil => rfl
      | cons x xs ih =>
        simp only [List.mem_cons, not_or] at hr
        rw [split1, if_neg (Ne.symm hr.1), ih hr.2]
    rw [this]
    rfl
  have hc : chosen disk raw .none = glob raw (disk.map Prod.fst) := by
    show glob (eisPattern raw) (disk.map Prod.fst) = _
    rw [hpat]
  rw [hc]
  unfold glob
  rw [List.mem_filter]
  obtain ⟨init, last, hs, _⟩ := splitC_snoc '/' raw
  have hsub : ∀ q ∈ init ++ [last], Plain q := by
    intro q hq
    have hmem : ∀ c, c ∈ q → c ∈ raw := by
      intro c hc'
      rw [← join_splitC '/' raw, hs]
      clear hs hc hpat hm
      generalize init ++ [last] = l at hq
      induction l with
      | nil => simp at hq
      | cons a as ih =>
        cases as with
        | nil => simp at hq; subst hq; simpa [join] using hc'
        | cons b bs =>
          rw [join]
          rcases List.mem_cons.mp hq with rfl | hq
          · simp [hc']
          · simp [ih hq]
    exact ⟨fun h => hp.1 (hmem _ h), fun h => hp.2.1 (hmem _ h), fun h => hp.2.2 (hmem _ h)⟩
  rw [hs, partsFit_snoc _ _ _ (fun q hq => hsub q (by simp [hq]))]
  constructor
  · rintro ⟨_, z, hz, hf⟩
    rw [(partFits_plain last z (hsub last (by simp))).mp hf, ← hs] at hz
    have := congrArg (join ['/']) hz
    rwa [join_splitC, join_splitC] at this
  · rintro rfl
    exact ⟨hm, last, hs, (partFits_plain last last (hsub last (by simp))).mpr rfl⟩

/-- C131 fails: a single path given as text, which the documentation allows, is taken letter by
letter -/
theorem C131_text_violated {T : Type} (strptime : Str → Except Err Str) (readCsv : List Str → Except Err T)
    (disk : List (Str × List Str)) (raw : Str) (st : State T) (c : Char) (p : Str)
    (h : ∀ f ∈ disk, f.1.length ≠ 1) :
    loadEis strptime readCsv disk raw st (.text (c :: p)) = (st, some .fileNotFound) := by
  have hc : chosen disk raw (.text (c :: p)) = [c] :: p.map (fun x => [x]) := rfl
  unfold loadEis
  rw [hc, readAll]
  have : readPath strptime readCsv disk [c] = .error .fileNotFound := by
    unfold readPath
    rw [List.find?_eq_none.mpr]
    intro f hf
    have := h f hf
    simp only [decide_eq_true_eq]
    intro e
    rw [e] at this
    exact this rfl
  rw [this]

/-- two spectra are found, and a third file is not one -/
example : chosen [("d.x/run.078".toList, []), ("d.x/run.EIS1.078".toList, []), ("d.x/run.EIS2.078".toList, []),
    ("d.x/run2.EIS1.078".toList, [])] "d.x/run.078".toList .none =
    ["d.x/run.EIS1.078".toList, "d.x/run.EIS2.078".toList] := by decide +kernel

example : Extended "d.x/run.078".toList "d.x/run".toList "078".toList ∧ Plain "d.x/run.078".toList := by
  refine ⟨⟨by decide, by decide, by decide⟩, by decide, by decide, by decide⟩

end Beep.Props.Eis
