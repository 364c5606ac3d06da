import Verif.Model.DatapathId
import Verif.Spec.DatapathId
import Verif.Proof.Datapath
import Verif.Proof.Text
import Verif.Props.Datapath
/-
Property theorems C157 about the id of a datapath.
-/
namespace Beep.Props.DatapathId
open Beep.Datapath Beep.DatapathId Beep.Text Beep.Spec.DatapathId Beep.Spec.Datapath

/-! ### the id as pieces between colons -/

/-- the pieces of the id between its colons -/
def pieces (b c p s st l r sp : Str) : List Str :=
  ["barcode".toList, b ++ "-channel".toList, c ++ "-protocol".toList, p ++ "-schema".toList,
   s ++ "-structured".toList, st ++ "-legacy".toList, l ++ "-raw_path".toList,
   r ++ "-structured_path".toList, sp]

theorem lit1 : "barcode:".toList = "barcode".toList ++ [':'] := by decide
theorem lit2 : "-channel:".toList = "-channel".toList ++ [':'] := by decide
theorem lit3 : "-protocol:".toList = "-protocol".toList ++ [':'] := by decide
theorem lit4 : "-schema:".toList = "-schema".toList ++ [':'] := by decide
theorem lit5 : "-structured:".toList = "-structured".toList ++ [':'] := by decide
theorem lit6 : "-legacy:".toList = "-legacy".toList ++ [':'] := by decide
theorem lit7 : "-raw_path:".toList = "-raw_path".toList ++ [':'] := by decide
theorem lit8 : "-structured_path:".toList = "-structured_path".toList ++ [':'] := by decide

theorem idText_join (b c p s st l r sp : Str) : idText b c p s st l r sp = join [':'] (pieces b c p s st l r sp) := by
  unfold idText pieces
  rw [lit1, lit2, lit3, lit4, lit5, lit6, lit7, lit8]
  generalize "barcode".toList = x1
  generalize "-channel".toList = x2
  generalize "-protocol".toList = x3
  generalize "-schema".toList = x4
  generalize "-structured".toList = x5
  generalize "-legacy".toList = x6
  generalize "-raw_path".toList = x7
  generalize "-structured_path".toList = x8
  simp only [join, List.append_assoc]

theorem id_join (num : Rat → Str) (d : Datapath) :
    semiuniqueId num d = join [':'] (pieces (shown num (d.metadata.get? "barcode"))
      (shown num (d.metadata.get? "channel_id")) (shown num (d.metadata.get? "protocol"))
      (shownOpt d.schema) (shownBool (isStructured d)) (shownBool d.legacy)
      (shownOpt (pathAt d "raw")) (shownOpt (pathAt d "structured"))) := idText_join ..

theorem pieces_inj {b c p s st l r sp b' c' p' s' st' l' r' sp' : Str}
    (h : pieces b c p s st l r sp = pieces b' c' p' s' st' l' r' sp') :
    b = b' ∧ c = c' ∧ p = p' ∧ s = s' ∧ st = st' ∧ l = l' ∧ r = r' ∧ sp = sp' := by
  simp only [pieces, List.cons.injEq, true_and, and_true, List.append_cancel_right_eq] at h
  exact h

theorem shown_entry (num : Rat → Str) (d : Datapath) (k : String) :
    shown num (d.metadata.get? k) = shown num (some (entry d k)) := by
  unfold entry
  cases d.metadata.get? k <;> rfl

theorem colon_shownBool (b : Bool) : ':' ∉ shownBool b := by cases b <;> decide

theorem colon_shownOpt {p : Option String} (h : PlainPath p) : ':' ∉ shownOpt p := by
  cases p with
  | none => decide
  | some s => exact (h s rfl).1

theorem colon_plain (num : Rat → Str) {v : Val} (h : PlainEntry v) : ':' ∉ shown num (some v) := by
  rcases h with rfl | ⟨s, rfl, hs⟩
  · show ':' ∉ "None".toList
    decide
  · exact hs.1

theorem colon_number {num : Rat → Str} (hn : Printing num) {v : Val} (h : NumberEntry v) :
    ':' ∉ shown num (some v) := by
  rcases h with rfl | ⟨q, rfl⟩
  · show ':' ∉ "None".toList
    decide
  · exact hn.plain q

theorem shownOpt_inj {p q : Option String} (hp : PlainPath p) (hq : PlainPath q)
    (h : shownOpt p = shownOpt q) : p = q := by
  cases p with
  | none =>
    cases q with
    | none => rfl
    | some t => exact absurd (String.toList_inj.mp h).symm (hq t rfl).2
  | some s =>
    cases q with
    | none => exact absurd (String.toList_inj.mp h) (hp s rfl).2
    | some t => exact congrArg some (String.toList_inj.mp h)

theorem shownBool_inj {a b : Bool} (h : shownBool a = shownBool b) : a = b := by
  cases a <;> cases b <;> first | rfl | (exact absurd h (by decide))

theorem plain_inj (num : Rat → Str) {v w : Val} (hv : PlainEntry v) (hw : PlainEntry w)
    (h : shown num (some v) = shown num (some w)) : v = w := by
  rcases hv with rfl | ⟨s, rfl, hs⟩ <;> rcases hw with rfl | ⟨t, rfl, ht⟩
  · rfl
  · exact absurd (String.toList_inj.mp h).symm ht.2
  · exact absurd (String.toList_inj.mp h) hs.2
  · exact congrArg Val.str (String.toList_inj.mp h)

theorem number_inj {num : Rat → Str} (hn : Printing num) {v w : Val} (hv : NumberEntry v) (hw : NumberEntry w)
    (h : shown num (some v) = shown num (some w)) : v = w := by
  rcases hv with rfl | ⟨s, rfl⟩ <;> rcases hw with rfl | ⟨t, rfl⟩
  · rfl
  · exact absurd h.symm (hn.notNone t)
  · exact absurd h (hn.notNone s)
  · exact congrArg Val.num (hn.inj s t h)

theorem pieces_plain {num : Rat → Str} (hn : Printing num) {d : Datapath} (h : Ordinary d) :
    ∀ s ∈ pieces (shown num (d.metadata.get? "barcode"))
      (shown num (d.metadata.get? "channel_id")) (shown num (d.metadata.get? "protocol"))
      (shownOpt d.schema) (shownBool (isStructured d)) (shownBool d.legacy)
      (shownOpt (pathAt d "raw")) (shownOpt (pathAt d "structured")), ':' ∉ s := by
  have h1 := colon_plain num h.barcode
  have h2 := colon_number hn h.channel
  have h3 := colon_plain num h.protocol
  have h4 := colon_shownOpt h.schema
  have h5 := colon_shownBool (isStructured d)
  have h6 := colon_shownBool d.legacy
  have h7 := colon_shownOpt h.raw
  have h8 := colon_shownOpt h.structured
  rw [← shown_entry] at h1 h2 h3
  intro s hs
  simp only [pieces, List.mem_cons, List.not_mem_nil, or_false] at hs
  rcases hs with rfl | rfl | rfl | rfl | rfl | rfl | rfl | rfl | rfl
  · decide
  all_goals first
    | (rw [List.mem_append]; rintro (hc | hc)
       · first | exact h1 hc | exact h2 hc | exact h3 hc | exact h4 hc | exact h5 hc | exact h6 hc | exact h7 hc
       · revert hc; decide)
    | exact h8

/-- C157.  Two datapaths whose barcode, protocol and paths are ordinary texts and whose channel is
a number have the same id exactly if they agree in barcode, channel, protocol, schema, structured
and legacy state and in the paths of the raw and of the structured file.  Missing for the full
property: arbitrary texts, see `C157_separator_violated` and `C157_none_violated`. -/
theorem C157_identity_partial (num : Rat → Str) (hn : Printing num) (d e : Datapath)
    (hd : Ordinary d) (he : Ordinary e) :
    semiuniqueId num d = semiuniqueId num e ↔ Agree d e := by
  constructor
  · intro h
    rw [id_join, id_join] at h
    have h' := congrArg (splitC ':') h
    rw [splitC_join ':' _ (by simp [pieces]) (pieces_plain hn hd),
      splitC_join ':' _ (by simp [pieces]) (pieces_plain hn he)] at h'
    obtain ⟨a1, a2, a3, a4, a5, a6, a7, a8⟩ := pieces_inj h'
    rw [shown_entry, shown_entry] at a1 a2 a3
    exact ⟨plain_inj num hd.barcode he.barcode a1, number_inj hn hd.channel he.channel a2,
      plain_inj num hd.protocol he.protocol a3, shownOpt_inj hd.schema he.schema a4, shownBool_inj a5,
      shownBool_inj a6, shownOpt_inj hd.raw he.raw a7, shownOpt_inj hd.structured he.structured a8⟩
  · intro h
    have hr : pathAt d "raw" = pathAt e "raw" := h.raw
    have hs : pathAt d "structured" = pathAt e "structured" := h.structuredPath
    rw [id_join, id_join, shown_entry num d, shown_entry num e, shown_entry num d, shown_entry num e,
      shown_entry num d, shown_entry num e, h.barcode, h.channel, h.protocol, h.schema, h.structured,
      h.legacy, hr, hs]

/-- C157, without conditions: datapaths that agree have the same id -/
theorem C157_agree (num : Rat → Str) (d e : Datapath) (h : Agree d e) :
    semiuniqueId num d = semiuniqueId num e := by
  have hr : pathAt d "raw" = pathAt e "raw" := h.raw
  have hs : pathAt d "structured" = pathAt e "structured" := h.structuredPath
  rw [id_join, id_join, shown_entry num d, shown_entry num e, shown_entry num d, shown_entry num e,
    shown_entry num d, shown_entry num e, h.barcode, h.channel, h.protocol, h.schema, h.structured,
    h.legacy, hr, hs]

/-- C157, violated when a text holds a separator: two runs with different barcodes and different
channels have the same id. -/
theorem C157_separator_violated (num : Rat → Str) : ∃ d e : Datapath,
    entry d "barcode" ≠ entry e "barcode" ∧ entry d "channel_id" ≠ entry e "channel_id" ∧
    semiuniqueId num d = semiuniqueId num e := by
  refine ⟨{ raw := none, metadata := [("barcode", .str "a"), ("channel_id", .str "b-channel:c")], paths := [],
            schema := none },
          { raw := none, metadata := [("barcode", .str "a-channel:b"), ("channel_id", .str "c")], paths := [],
            schema := none }, by decide +kernel, by decide +kernel, ?_⟩
  show idText "a".toList "b-channel:c".toList _ _ _ _ _ _ = idText "a-channel:b".toList "c".toList _ _ _ _ _ _
  have h : ∀ x : Str, "a".toList ++ ("-channel:".toList ++ ("b-channel:c".toList ++ x)) =
      "a-channel:b".toList ++ ("-channel:".toList ++ ("c".toList ++ x)) := by
    intro x
    rw [← List.append_assoc, ← List.append_assoc, ← List.append_assoc, ← List.append_assoc]
    exact congrArg (· ++ x) (by decide)
  unfold idText
  rw [h]
  rfl

/-- C157, violated for missing values: no barcode and the barcode "None" give the same id, whatever
the rest of the run. -/
theorem C157_none_violated (num : Rat → Str) (d : Datapath) :
    semiuniqueId num { d with metadata := d.metadata.set "barcode" .null } =
      semiuniqueId num { d with metadata := d.metadata.set "barcode" (.str "None") } ∧
    entry { d with metadata := d.metadata.set "barcode" .null } "barcode" ≠
      entry { d with metadata := d.metadata.set "barcode" (.str "None") } "barcode" := by
  constructor
  · have h : ∀ v k, k ≠ "barcode" → (d.metadata.set "barcode" v).get? k = d.metadata.get? k :=
      fun v k hk => by rw [Dict.get?_set, if_neg hk]
    have h1 : ∀ v, (d.metadata.set "barcode" v).get? "barcode" = some v :=
      fun v => by rw [Dict.get?_set, if_pos rfl]
    unfold semiuniqueId
    show idText (shown num ((d.metadata.set "barcode" .null).get? "barcode")) _ _ _ _ _ _ _ =
      idText (shown num ((d.metadata.set "barcode" (.str "None")).get? "barcode")) _ _ _ _ _ _ _
    rw [h1, h1]
    show idText _ (shown num ((d.metadata.set "barcode" .null).get? "channel_id"))
        (shown num ((d.metadata.set "barcode" .null).get? "protocol")) _ _ _ _ _ =
      idText _ (shown num ((d.metadata.set "barcode" (.str "None")).get? "channel_id"))
        (shown num ((d.metadata.set "barcode" (.str "None")).get? "protocol")) _ _ _ _ _
    rw [h _ "channel_id" (by decide), h _ "protocol" (by decide), h _ "channel_id" (by decide),
      h _ "protocol" (by decide)]
    rfl
  · simp [entry, Dict.get?_set]

/-! ### structuring -/

theorem id_length (num : Rat → Str) (d e : Datapath) (hm : d.metadata = e.metadata) (hs : d.schema = e.schema)
    (hp : d.paths = e.paths) (hl : d.legacy = e.legacy) (h1 : isStructured d = false)
    (h2 : isStructured e = true) : semiuniqueId num d ≠ semiuniqueId num e := by
  intro h
  unfold semiuniqueId pathAt at h
  rw [hm, hs, hp, hl, h1, h2] at h
  have h' := congrArg List.length h
  unfold idText at h'
  simp only [List.length_append] at h'
  have a : (shownBool false).length = 5 := by decide
  have b : (shownBool true).length = 4 := by decide
  rw [a, b] at h'
  omega

/-- C157 (structuring).  Structuring a run that is not structured changes its id, whatever the
parameters and the data; the id after it does not depend on the parameters; and unstructuring
gives the first id again. -/
theorem C157_structure (num : Rat → Str) (d d1 d2 : Datapath) (c1 c2 : StructCall)
    (hs : isStructured d = false) (h1 : structure_ c1 d = (d1, .ok ())) (h2 : structure_ c2 d = (d2, .ok ())) :
    semiuniqueId num d1 ≠ semiuniqueId num d ∧ semiuniqueId num d1 = semiuniqueId num d2 ∧
    ∃ d3, unstructure d1 = (d3, .ok ()) ∧ semiuniqueId num d3 = semiuniqueId num d := by
  have key : ∀ (c : StructCall) (x : Datapath), structure_ c d = (x, .ok ()) →
      x.metadata = d.metadata ∧ x.schema = d.schema ∧ x.paths = d.paths ∧ x.legacy = d.legacy ∧
      d.legacy = false ∧ isStructured x = true := by
    intro c x h
    unfold structure_ mustNotBeLegacy at h
    cases hl : d.legacy with
    | true => rw [hl] at h; simp at h
    | false =>
      rw [hl, if_neg (by simp)] at h
      unfold structureBody at h
      cases hd : d.diagnostic with
      | none =>
        rw [hd] at h
        unfold structureAging at h
        rcases hc : c.data with e | f <;> simp only [hc] at h
        · simp at h
        · rcases hc2 : c.summary with e | g <;> simp only [hc2] at h
          · simp at h
          · simp only [Prod.mk.injEq, and_true] at h
            subst h
            exact ⟨rfl, rfl, rfl, hl, rfl, rfl⟩
      | some g =>
        rw [hd] at h
        rcases ha : c.diagSummary with e | a <;> simp only [ha] at h
        · simp at h
        rcases hb : c.diagData with e | b <;> simp only [hb] at h
        · simp at h
        unfold structureAging at h
        rcases hc : c.data with e | f <;> simp only [hc] at h
        · simp at h
        · rcases hc2 : c.summary with e | g <;> simp only [hc2] at h
          · simp at h
          · simp only [Prod.mk.injEq, and_true] at h
            subst h
            exact ⟨rfl, rfl, rfl, hl, rfl, rfl⟩
  obtain ⟨m1, s1, p1, l1, hl, st1⟩ := key c1 d1 h1
  obtain ⟨m2, s2, p2, l2, _, st2⟩ := key c2 d2 h2
  refine ⟨fun h => id_length num d d1 m1.symm s1.symm p1.symm l1.symm hs st1 h.symm, ?_, ?_⟩
  · unfold semiuniqueId pathAt
    rw [m1, m2, s1, s2, p1, p2, l1, l2, st1, st2]
  · refine ⟨{ d1 with data := none, diagData := none, summary := none, diagSummary := none,
                      params := [], diagnostic := none }, ?_, ?_⟩
    · unfold unstructure mustNotBeLegacy
      exact if_neg (by rw [l1, hl]; simp)
    · unfold semiuniqueId pathAt
      show idText (shown num (d1.metadata.get? "barcode")) (shown num (d1.metadata.get? "channel_id"))
        (shown num (d1.metadata.get? "protocol")) (shownOpt d1.schema) (shownBool false) (shownBool d1.legacy)
        (shownOpt ((d1.paths.get? "raw").getD none)) (shownOpt ((d1.paths.get? "structured").getD none)) = _
      rw [m1, s1, p1, l1, hs]

/-- C157 (diagnostics): assigning diagnostic cycles never changes the id -/
theorem C157_diagnostic (num : Rat → Str) (d : Datapath) (a : DiagArg) :
    semiuniqueId num (setDiagnostic a d).1 = semiuniqueId num d := by
  cases a <;> rfl

/-! ### saving and loading -/

theorem reload_facts (env : Env) (ok : EnvOK env) (d : Datapath) (hr : Reachable env d)
    (hl : d.legacy = false) (hs : isStructured d = true) (omitRaw : Bool) (file : String) :
    ∃ d', saveLoad env omitRaw file d = .ok d' ∧ isStructured d' = true ∧ d'.legacy = omitRaw ∧
      entry d' "barcode" = entry d "barcode" ∧ entry d' "protocol" = entry d "protocol" ∧
      entry d' "channel_id" = entry d "channel_id" ∧ d'.schema = d.schema ∧
      path d' "raw" = path d "raw" ∧ path d' "structured" = some (env.abspath file) := by
  obtain ⟨r, s, i, _, _, _, h1, h2⟩ := saveLoad_keep ok (inv_reachable ok hr) file hl hs
  cases omitRaw
  · exact ⟨_, h1, rfl, rfl, rfl, rfl, rfl, rfl, by simp [path, Dict.get?_set], by simp [path, Dict.get?_set]⟩
  · exact ⟨_, h2, rfl, rfl, rfl, rfl, rfl, rfl, by simp [path, Dict.get?_set], by simp [path, Dict.get?_set]⟩

/-- C157 (reloading).  A structured run that is saved and loaded keeps its id exactly if it is
saved with its raw data to the file that it is already known to be in; copies loaded from
different files, or saved with and without raw data, have different ids. -/
theorem C157_reload (num : Rat → Str) (env : Env) (ok : EnvOK env) (d : Datapath) (hr : Reachable env d)
    (hl : d.legacy = false) (hs : isStructured d = true) (o1 o2 : Bool) (f1 f2 : String) :
    ∃ d1 d2, saveLoad env o1 f1 d = .ok d1 ∧ saveLoad env o2 f2 d = .ok d2 ∧
      (semiuniqueId num d1 = semiuniqueId num d2 ↔ o1 = o2 ∧ env.abspath f1 = env.abspath f2) ∧
      (semiuniqueId num d1 = semiuniqueId num d ↔
        o1 = false ∧ (path d "structured").getD "None" = env.abspath f1) := by
  obtain ⟨d1, e1, st1, l1, b1, p1, c1, s1, r1, sp1⟩ := reload_facts env ok d hr hl hs o1 f1
  obtain ⟨d2, e2, st2, l2, b2, p2, c2, s2, r2, sp2⟩ := reload_facts env ok d hr hl hs o2 f2
  have core : ∀ (x y : Datapath), entry x "barcode" = entry y "barcode" → entry x "protocol" = entry y "protocol" →
      entry x "channel_id" = entry y "channel_id" → x.schema = y.schema → isStructured x = isStructured y →
      path x "raw" = path y "raw" →
      (semiuniqueId num x = semiuniqueId num y ↔ x.legacy = y.legacy ∧
        (path x "structured").getD "None" = (path y "structured").getD "None") := by
    intro x y hb hp hc hsch hst hraw
    have hraw' : pathAt x "raw" = pathAt y "raw" := hraw
    have hx : ∀ z : Datapath, pathAt z "structured" = path z "structured" := fun _ => rfl
    rw [id_join, id_join, shown_entry num x, shown_entry num y, shown_entry num x, shown_entry num y,
      shown_entry num x, shown_entry num y, hb, hp, hc, hsch, hst, hraw', hx, hx]
    simp only [pieces, join, List.append_assoc, List.append_cancel_left_eq]
    constructor
    · intro h
      have hleg : x.legacy = y.legacy := by
        cases hxl : x.legacy <;> cases hyl : y.legacy <;> first | rfl | (rw [hxl, hyl] at h; simp [shownBool] at h)
      rw [hleg] at h
      simp only [List.append_cancel_left_eq] at h
      exact ⟨hleg, String.toList_inj.mp h⟩
    · rintro ⟨h1, h2⟩
      rw [h1]
      simp only [shownOpt, h2]
  refine ⟨d1, d2, e1, e2, ?_, ?_⟩
  · rw [core d1 d2 (b1.trans b2.symm) (p1.trans p2.symm) (c1.trans c2.symm) (s1.trans s2.symm)
      (st1.trans st2.symm) (r1.trans r2.symm), l1, l2, sp1, sp2]
    rfl
  · rw [core d1 d b1 p1 c1 s1 (st1.trans hs.symm) r1, l1, hl, sp1]
    constructor
    · rintro ⟨h1, h2⟩; exact ⟨h1, h2.symm⟩
    · rintro ⟨h1, h2⟩; exact ⟨h1, h2.symm⟩

/-! ### the hypotheses are met -/

/-- a way to print numbers (numerator, slash, denominator) -/
def exNum (q : Rat) : Str :=
  (if q.num < 0 then ['-'] else []) ++ List.replicate q.num.natAbs '1' ++ '/' :: List.replicate q.den '1'

theorem exNum_plain (q : Rat) : ':' ∉ exNum q := by
  unfold exNum
  intro h
  split at h <;> simp [List.mem_append, List.mem_replicate] at h

theorem count_rep (n : Nat) : (List.replicate n '1').takeWhile (fun c => c == '1') = List.replicate n '1' := by
  induction n with
  | zero => rfl
  | succ n ih => simp [List.replicate_succ, ih]

theorem rep_slash {a b c d : Nat}
    (h : List.replicate a '1' ++ '/' :: List.replicate b '1' = List.replicate c '1' ++ '/' :: List.replicate d '1') :
    a = c ∧ b = d := by
  induction a generalizing c with
  | zero =>
    cases c with
    | zero =>
      simp only [List.replicate_zero, List.nil_append, List.cons.injEq, true_and] at h
      exact ⟨rfl, by simpa using congrArg List.length h⟩
    | succ c => simp [List.replicate_succ] at h
  | succ a ih =>
    cases c with
    | zero => simp [List.replicate_succ] at h
    | succ c =>
      simp only [List.replicate_succ, List.cons_append, List.cons.injEq, true_and] at h
      obtain ⟨h1, h2⟩ := ih h
      exact ⟨by omega, h2⟩

/-- numbers can be printed as required -/
theorem exNum_printing : Printing exNum where
  plain := exNum_plain
  notNone := by
    intro q h
    have : '/' ∈ "None".toList := h ▸ (by simp [exNum])
    revert this
    decide
  inj := by
    intro p q h
    unfold exNum at h
    have key : ∀ {a b c d : Nat}, ['-'] ++ List.replicate a '1' ++ '/' :: List.replicate b '1' ≠
        List.replicate c '1' ++ '/' :: List.replicate d '1' := by
      intro a b c d h
      cases c <;> simp [List.replicate_succ] at h
    by_cases hp : p.num < 0 <;> by_cases hq : q.num < 0
    · simp only [hp, hq, if_true, List.append_assoc, List.append_cancel_left_eq] at h
      obtain ⟨h1, h2⟩ := rep_slash h
      exact Rat.ext (by omega) h2
    · simp only [hp, hq, if_true, if_false, List.nil_append] at h
      exact absurd h key
    · simp only [hp, hq, if_true, if_false, List.nil_append] at h
      exact absurd h.symm key
    · simp only [hp, hq, if_false, List.nil_append] at h
      obtain ⟨h1, h2⟩ := rep_slash h
      exact Rat.ext (by omega) h2

/-- a run with ordinary metadata -/
def exRun (b : String) : Datapath :=
  { raw := some exRaw, metadata := [("barcode", .str b), ("protocol", .str "test-1.000"), ("channel_id", .num 5)],
    paths := [("raw", some "/data/a_CH5.csv")], schema := none }

theorem exRun_ordinary (b : String) (hb : Plain b) : Ordinary (exRun b) where
  barcode := Or.inr ⟨b, rfl, hb⟩
  protocol := Or.inr ⟨"test-1.000", rfl, by decide, by decide⟩
  channel := Or.inr ⟨5, rfl⟩
  schema := by intro s h; cases h
  raw := by
    intro s h
    have : some "/data/a_CH5.csv" = some s := h
    cases this
    exact ⟨by decide, by decide⟩
  structured := by
    intro s h
    have : (none : Option String) = some s := h
    cases this

/-- two ordinary runs, told apart by their barcodes -/
example : Ordinary (exRun "EL15") ∧ Ordinary (exRun "EL16") ∧
    semiuniqueId exNum (exRun "EL15") ≠ semiuniqueId exNum (exRun "EL16") := by
  have h1 := exRun_ordinary "EL15" ⟨by decide, by decide⟩
  have h2 := exRun_ordinary "EL16" ⟨by decide, by decide⟩
  refine ⟨h1, h2, fun h => ?_⟩
  have := ((C157_identity_partial exNum exNum_printing _ _ h1 h2).mp h).barcode
  revert this
  decide +kernel

/-- a run that is structured with success -/
example : isStructured (exRun "EL15") = false ∧ (structure_ exCall (exRun "EL15")).2 = .ok () := by decide +kernel

end Beep.Props.DatapathId
