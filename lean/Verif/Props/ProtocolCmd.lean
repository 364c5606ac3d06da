import Verif.Spec.ProtocolCmd
import Verif.Props.Generate
/-
C118 the command `beep protocol`.
-/
namespace Beep.Props.ProtocolCmd
open Beep Beep.ProtocolCmd Beep.Spec.ProtocolCmd
open Beep.Batch (Files Exc)
open Beep.Generate (Row State loop row)
open Beep.Spec.Generate (Generates Unsupported Handled)
open Beep.Proof.Generate

variable {P G : Type}

/-! ### Lemmas -/

theorem writeAll_other (fs : Files (Content P)) (l : List (Str × P)) (n : Str) (h : ∀ x ∈ l, x.1 ≠ n) :
    writeAll fs l n = fs n := by
  unfold writeAll
  induction l generalizing fs with
  | nil => rfl
  | cons x l ih =>
    rw [List.foldl_cons, ih _ (fun y hy => h y (by simp [hy]))]
    have := h x (by simp)
    simp only [Batch.Files.write, if_neg (Ne.symm this)]

theorem writeAll_last (fs : Files (Content P)) (a b : List (Str × P)) (x : Str × P) (h : ∀ y ∈ b, y.1 ≠ x.1) :
    writeAll fs (a ++ x :: b) x.1 = some (.protocol x.2) := by
  have : writeAll fs (a ++ x :: b) =
      writeAll (Batch.Files.write (writeAll fs a) x.1 (.protocol x.2)) b := by
    unfold writeAll
    rw [List.foldl_append, List.foldl_cons]
  rw [this, writeAll_other _ _ _ h]
  simp [Batch.Files.write]

theorem entries_get (d : Dict Str Bool) (l : List Str) (b : Bool) (n : Str) :
    Dict.get? (entries d l b) n = if n ∈ l then some b else Dict.get? d n := by
  unfold entries
  induction l generalizing d with
  | nil => simp
  | cons x l ih =>
    rw [List.foldl_cons, ih]
    by_cases h : n ∈ l
    · simp [h]
    · by_cases hx : n = x
      · subst hx
        simp [h, Dict.get?_set_self]
      · simp [h, hx, Dict.get?_set_ne _ _ hx]

/-- the generated files, with the rows they come from, in order -/
theorem rows_made (env : Generate.Env P G) (dir : Str) (rows : List Row)
    (hh : ∀ (i : Nat) r, rows[i]? = some r → Handled env dir i r) (x : Str × P) :
    x ∈ rows.zipIdx.filterMap (fun x => made env dir x.2 x.1) ↔
      ∃ (i : Nat) (r : Row), rows[i]? = some r ∧ Generates env dir i r x.1 x.2 := by
  rw [List.mem_filterMap]
  constructor
  · rintro ⟨⟨r, i⟩, hm, hx⟩
    have hi : rows[i]? = some r := by
      have := List.mem_zipIdx_iff_getElem?.mp hm
      simpa using this
    exact ⟨i, r, hi, (made_iff env dir i r (hh i r hi) x).mp hx⟩
  · rintro ⟨i, r, hi, hg⟩
    exact ⟨(r, i), List.mem_zipIdx_iff_getElem?.mpr (by simpa using hi), (made_iff env dir i r (hh i r hi) x).mpr hg⟩

theorem target_iff (w : World P G) (cwd : Str) (given : Option Str) (dir : Str) : Target w cwd given dir ↔
    dir = outDir w cwd given := by
  unfold Target outDir
  cases given with
  | none => simp
  | some o =>
    by_cases h : o = []
    · subst h; simp
    · simp [h]

theorem protocol_eq (w : World P G) (cwd : Str) (statusFile : Option Str) (csvFile : Str) (given : Option Str)
    (fs : Files (Content P)) (c : Content P) (hc : fs (w.abspath csvFile) = some c)
    (hd : w.isDir (outDir w cwd given) = true) (fs1 : Files (Content P)) (r : Except Exc (State P))
    (hg : generateFiles w (w.abspath csvFile) (outDir w cwd given) c fs = (fs1, r)) :
    protocol w cwd statusFile csvFile given fs =
      (report statusFile fs1 (statusOf w (w.abspath csvFile) c r), .ok (statusOf w (w.abspath csvFile) c r)) := by
  unfold protocol
  simp only [hc, hd, if_true, hg]

theorem report_self (statusFile : Option Str) (fs : Files (Content P)) (st : Status) (p : Str)
    (h : statusFile = some p) : report statusFile fs st p = some (.status st) := by
  subst h
  simp [report, Batch.Files.write]

theorem report_other (statusFile : Option Str) (fs : Files (Content P)) (st : Status) (p : Str)
    (h : statusFile ≠ some p) : report statusFile fs st p = fs p := by
  cases statusFile with
  | none => rfl
  | some q =>
    have : p ≠ q := fun e => h (by rw [e])
    simp only [report, Batch.Files.write, if_neg this]

theorem final_written (w : World P G) (dir : Str) (rows : List Row)
    (hh : ∀ (i : Nat) r, rows[i]? = some r → Handled w.env dir i r) (fs : Files (Content P)) (name : Str) (p : P)
    (h : Final w dir rows name p) :
    writeAll fs (rows.zipIdx.filterMap (fun x => made w.env dir x.2 x.1)) name = some (.protocol p) := by
  obtain ⟨i, r, hi, hg, hl⟩ := h
  have hlt : i < rows.length := (List.getElem?_eq_some_iff.mp hi).1
  have hs : rows.zipIdx = rows.zipIdx.take i ++ (r, i) :: rows.zipIdx.drop (i + 1) := by
    have hlt' : i < rows.zipIdx.length := by simpa using hlt
    have he : rows.zipIdx[i] = (r, i) := by
      have := (List.getElem?_eq_some_iff.mp hi).2
      simp [this]
    rw [← he, ← List.drop_eq_getElem_cons hlt', List.take_append_drop]
  rw [hs, List.filterMap_append, List.filterMap_cons,
    (made_iff w.env dir i r (hh i r hi) (name, p)).mpr hg]
  refine writeAll_last fs _ _ (name, p) ?_
  intro y hy he
  rw [List.mem_filterMap] at hy
  obtain ⟨⟨r', j⟩, hm, hy⟩ := hy
  obtain ⟨k, hk⟩ := List.mem_iff_getElem?.mp hm
  rw [List.getElem?_drop, List.getElem?_zipIdx] at hk
  obtain ⟨r'', hr'', hk⟩ := Option.map_eq_some_iff.mp hk
  simp only [Prod.mk.injEq] at hk
  obtain ⟨rfl, rfl⟩ := hk
  have hj : rows[0 + (i + 1 + k)]? = some r'' := by rw [Nat.zero_add]; exact hr''
  have hg' := (made_iff w.env dir _ r'' (hh _ _ hj) y).mp hy
  rw [he] at hg'
  exact hl _ _ _ (by omega) hj hg'

/-! ### C118 -/

/-- C118: when every row of the table can be handled, the status lists exactly the generated files, each of
which holds the protocol of the last row made for it; an exception is reported exactly when some row is not
supported.  The status is in the status file, and nothing else but the file of run names changes.
Missing for the whole property: see `C118_failures_violated` and `C118_raises_violated`. -/
theorem C118_status_partial (w : World P G) (cwd : Str) (statusFile : Option Str) (csvFile : Str)
    (given : Option Str) (fs : Files (Content P)) (c : Content P) (dir : Str) (rows : List Row)
    (hc : fs (w.abspath csvFile) = some c) (ht : Target w cwd given dir) (hd : w.isDir dir = true)
    (hr : w.read c = .ok rows) (hh : ∀ (i : Nat) r, rows[i]? = some r → Handled w.env dir i r) :
    ∃ fs' st, protocol w cwd statusFile csvFile given fs = (fs', .ok st) ∧
      st.csv = w.abspath csvFile ∧ st.csvMd5 = w.md5 c ∧
      (∀ name, Dict.get? st.protocol name = some true ↔ Made w dir rows name) ∧
      (st.traceback = none ↔ ∀ (i : Nat) r, rows[i]? = some r → ¬ Unsupported w.env i r) ∧
      (∀ p, statusFile = some p → fs' p = some (.status st)) ∧
      (∀ name p, Final w dir rows name p → name ≠ w.namesFile dir (w.abspath csvFile) → statusFile ≠ some name →
        fs' name = some (.protocol p)) ∧
      (∀ name, ¬ Made w dir rows name → name ≠ w.namesFile dir (w.abspath csvFile) → statusFile ≠ some name →
        fs' name = fs name) := by
  obtain ⟨s, h1, h2, h3, h4, h5, h6⟩ := loop_handled w.env dir 0 rows {}
    (fun j r hj => by rw [Nat.zero_add]; exact hh j r hj)
  simp only [List.nil_append] at h2 h3
  have hgen : generateFiles w (w.abspath csvFile) dir c fs =
      (Batch.Files.write (writeAll fs s.written) (w.namesFile dir (w.abspath csvFile)) (.names s.names), .ok s) := by
    unfold generateFiles
    simp only [hr, h1]
  rw [target_iff] at ht
  subst ht
  refine ⟨_, _, protocol_eq w cwd statusFile csvFile given fs c hc hd _ _ hgen, rfl, rfl, ?_, ?_, ?_, ?_, ?_⟩
  · intro name
    simp only [statusOf, outcome, entries_get, List.not_mem_nil, if_false, h3]
    simp only [Dict.get?, ite_eq_left_iff, reduceCtorEq, imp_false, not_not, List.mem_map]
    constructor
    · rintro ⟨x, hx, rfl⟩
      obtain ⟨i, r, hi, hg⟩ := (rows_made w.env _ rows hh x).mp hx
      exact ⟨i, r, x.2, hi, hg⟩
    · rintro ⟨i, r, p, hi, hg⟩
      exact ⟨(name, p), (rows_made w.env _ rows hh (name, p)).mpr ⟨i, r, hi, hg⟩, rfl⟩
  · have hcl : s.clean = true ↔ ∀ (i : Nat) r, rows[i]? = some r → ¬ Unsupported w.env i r := by
      rw [h5]
      simp only [true_and, List.filter_eq_nil_iff]
      constructor
      · intro h i r hi hu
        refine h (r, i) (List.mem_zipIdx_iff_getElem?.mpr (by simpa using hi)) ?_
        rw [(made_none w.env _ i r (hh i r hi)).mpr hu]; rfl
      · rintro h ⟨r, i⟩ hm hn
        have hi : rows[i]? = some r := by simpa using List.mem_zipIdx_iff_getElem?.mp hm
        exact h i r hi ((made_none w.env _ i r (hh i r hi)).mp (Option.isNone_iff_eq_none.mp hn))
    rw [← hcl]
    simp only [statusOf, outcome]
    cases s.clean <;> simp
  · exact fun p hp => report_self _ _ _ p hp
  · intro name p hf hn hst
    have hw := final_written w _ rows hh fs name p hf
    rw [← h2] at hw
    rw [report_other _ _ _ _ hst]
    simp only [Batch.Files.write, if_neg hn]
    exact hw
  · intro name hf hn hst
    have hw : writeAll fs s.written name = fs name := by
      apply writeAll_other
      intro x hx he
      rw [h2] at hx
      obtain ⟨i, r, hi, hg⟩ := (rows_made w.env _ rows hh x).mp hx
      exact hf ⟨i, r, x.2, hi, by rw [← he]; exact hg⟩
    rw [report_other _ _ _ _ hst]
    simp only [Batch.Files.write, if_neg hn]
    exact hw

/-- C118: the command ends with a status unless the table or the output directory does not exist; then it ends
with a `FileNotFoundError` and changes nothing -/
theorem C118_ends (w : World P G) (cwd : Str) (statusFile : Option Str) (csvFile : Str) (given : Option Str)
    (fs : Files (Content P)) (dir : Str) (ht : Target w cwd given dir) :
    ((fs (w.abspath csvFile) = none ∨ w.isDir dir = false) →
      protocol w cwd statusFile csvFile given fs = (fs, .error .fileNotFound)) ∧
    (fs (w.abspath csvFile) ≠ none → w.isDir dir = true →
      ∃ fs' st, protocol w cwd statusFile csvFile given fs = (fs', .ok st) ∧
        ∀ p, statusFile = some p → fs' p = some (.status st)) := by
  rw [target_iff] at ht
  subst ht
  refine ⟨?_, ?_⟩
  · intro h
    unfold protocol
    split
    · rfl
    · rename_i c hc
      rcases h with h | h
      · rw [hc] at h; cases h
      · simp [h]
  · intro hc hd
    obtain ⟨c, hc⟩ := Option.ne_none_iff_exists'.mp hc
    exact ⟨_, _, protocol_eq w cwd statusFile csvFile given fs c hc hd _ _ rfl,
      fun p hp => report_self _ _ _ p hp⟩

/-- C118 fails for rows that are not supported: no status ever lists a file as not generated -/
theorem C118_failures_violated (w : World P G) (cwd : Str) (statusFile : Option Str) (csvFile : Str)
    (given : Option Str) (fs fs' : Files (Content P)) (st : Status)
    (h : protocol w cwd statusFile csvFile given fs = (fs', .ok st)) (name : Str) :
    Dict.get? st.protocol name ≠ some false := by
  unfold protocol at h
  split at h
  · cases h
  · split at h
    · cases h
      simp only [statusOf, entries_get, List.not_mem_nil, if_false]
      split <;> simp [Dict.get?]
    · cases h

theorem loop_first (env : Generate.Env P G) (dir : Str) (rows : List Row) (i : Nat) (s : State P) (k : Nat) (r : Row)
    (hk : rows[k]? = some r) (hb : ¬ Handled env dir (i + k) r)
    (hh : ∀ (j : Nat) r', j < k → rows[j]? = some r' → Handled env dir (i + j) r') :
    ∃ s' e, loop env dir i rows s = (s', some e) ∧
      s'.written = s.written ++ ((rows.take k).zipIdx i).filterMap (fun x => made env dir x.2 x.1) := by
  induction rows generalizing i s k with
  | nil => simp at hk
  | cons r0 rs ih =>
    cases k with
    | zero =>
      simp only [List.getElem?_cons_zero, Option.some.injEq] at hk
      subst hk
      rw [Nat.add_zero] at hb
      simp only [loop]
      cases hr : row env dir i r0 with
      | error e => exact ⟨s, e, rfl, by simp⟩
      | ok m =>
        cases m with
        | fail f => exact absurd (Or.inr ((row_fail env dir i r0).mp ⟨f, hr⟩)) hb
        | file n p =>
          simp only
          cases hs : env.save n p with
          | none => exact absurd (Or.inl ⟨n, p, (row_file env dir i r0 n p).mp ⟨hr, hs⟩⟩) hb
          | some e => exact ⟨s, e, rfl, by simp⟩
    | succ k =>
      have hk' : rs[k]? = some r := by simpa using hk
      have h0 := hh 0 r0 (by omega) (by simp)
      rw [Nat.add_zero] at h0
      have hrest : ∀ (j : Nat) r', j < k → rs[j]? = some r' → Handled env dir (i + 1 + j) r' := by
        intro j r' hj hj'
        have := hh (j + 1) r' (by omega) (by simpa using hj')
        rw [show i + 1 + j = i + (j + 1) by omega]; exact this
      have hb' : ¬ Handled env dir (i + 1 + k) r := by
        rw [show i + 1 + k = i + (k + 1) by omega]; exact hb
      simp only [loop, List.take_succ_cons, List.zipIdx_cons, List.filterMap_cons]
      cases hm : made env dir i r0 with
      | none =>
        obtain ⟨f, hf⟩ := (row_fail env dir i r0).mpr ((made_none env dir i r0 h0).mp hm)
        rw [hf]
        exact ih (i + 1) _ k hk' hb' hrest
      | some x =>
        obtain ⟨hr, hs⟩ := (row_file env dir i r0 x.1 x.2).mpr ((made_iff env dir i r0 h0 x).mp hm)
        rw [hr]
        simp only [hs]
        obtain ⟨s', e, h1, h2⟩ := ih (i + 1) _ k hk' hb' hrest
        refine ⟨s', e, h1, ?_⟩
        rw [h2]
        simp

/-- C118 fails when the builder of a row raises: the status lists no file at all, although the files of all
rows before it were written -/
theorem C118_raises_violated (w : World P G) (cwd : Str) (statusFile : Option Str) (csvFile : Str)
    (given : Option Str) (fs : Files (Content P)) (c : Content P) (dir : Str) (rows : List Row) (k : Nat) (r : Row)
    (hc : fs (w.abspath csvFile) = some c) (ht : Target w cwd given dir) (hd : w.isDir dir = true)
    (hr : w.read c = .ok rows) (hk : rows[k]? = some r) (hb : ¬ Handled w.env dir k r)
    (hh : ∀ (j : Nat) r', j < k → rows[j]? = some r' → Handled w.env dir j r') :
    ∃ fs' st, protocol w cwd statusFile csvFile given fs = (fs', .ok st) ∧ st.protocol = [] ∧
      st.traceback ≠ none ∧
      ∀ name p, Final w dir (rows.take k) name p → statusFile ≠ some name → fs' name = some (.protocol p) := by
  obtain ⟨s, e, h1, h2⟩ := loop_first w.env dir rows 0 {} k r hk (by rw [Nat.zero_add]; exact hb)
    (fun j r' hj hj' => by rw [Nat.zero_add]; exact hh j r' hj hj')
  have hgen : generateFiles w (w.abspath csvFile) dir c fs = (writeAll fs s.written, .error e) := by
    unfold generateFiles
    simp only [hr, h1]
  rw [target_iff] at ht
  subst ht
  refine ⟨_, _, protocol_eq w cwd statusFile csvFile given fs c hc hd _ _ hgen, rfl,
    (by simp [statusOf, outcome]), ?_⟩
  intro name p hf hst
  have hw := final_written w _ (rows.take k) (by
    intro i r' hi
    have hlt : i < (rows.take k).length := (List.getElem?_eq_some_iff.mp hi).1
    have hik : i < k := by rw [List.length_take] at hlt; omega
    exact hh i r' hik (by rw [← hi, List.getElem?_take_of_lt hik])) fs name p hf
  simp only [List.nil_append] at h2
  rw [← h2] at hw
  rw [report_other _ _ _ _ hst]
  exact hw

theorem loop_names (env : Generate.Env P G) (dir : Str) (rows : List Row) (i : Nat) (s s' : State P)
    (h : loop env dir i rows s = (s', none)) :
    ∃ idx : List (Nat × Row), idx.Pairwise (fun a b => a.1 < b.1) ∧
      (∀ x : Nat × Row, x ∈ idx ↔ ∃ j, x.1 = i + j ∧ rows[j]? = some x.2 ∧ ∃ n p, Generates env dir x.1 x.2 n p) ∧
      s'.names = s.names ++ idx.map (fun x => Generate.filePrefix x.2 ++ ['_']) := by
  induction rows generalizing i s with
  | nil =>
    simp only [loop, Prod.mk.injEq, and_true] at h
    subst h
    exact ⟨[], by simp, by simp, by simp⟩
  | cons r rs ih =>
    simp only [loop] at h
    split at h
    · cases h
    · rename_i f hf
      obtain ⟨idx, h1, h2, h3⟩ := ih (i + 1) _ h
      refine ⟨idx, h1, ?_, h3⟩
      intro x
      rw [h2]
      constructor
      · rintro ⟨j, hj, hr, hg⟩
        exact ⟨j + 1, by omega, by simpa using hr, hg⟩
      · rintro ⟨j, hj, hr, n, p, hg⟩
        cases j with
        | zero =>
          simp only [List.getElem?_cons_zero, Option.some.injEq] at hr
          have := ((row_file env dir x.1 x.2 n p).mpr hg).1
          rw [hj, Nat.add_zero, ← hr, hf] at this
          cases this
        | succ j => exact ⟨j, by omega, by simpa using hr, n, p, hg⟩
    · rename_i n p hf
      split at h
      · cases h
      · rename_i hs
        obtain ⟨idx, h1, h2, h3⟩ := ih (i + 1) _ h
        refine ⟨(i, r) :: idx, ?_, ?_, ?_⟩
        · rw [List.pairwise_cons]
          refine ⟨?_, h1⟩
          intro x hx
          obtain ⟨j, hj, -⟩ := (h2 x).mp hx
          simp only; omega
        · intro x
          rw [List.mem_cons, h2]
          constructor
          · rintro (rfl | ⟨j, hj, hr, hg⟩)
            · exact ⟨0, rfl, by simp, n, p, (row_file env dir i r n p).mp ⟨hf, hs⟩⟩
            · exact ⟨j + 1, by omega, by simpa using hr, hg⟩
          · rintro ⟨j, hj, hr, hg⟩
            cases j with
            | zero =>
              simp only [List.getElem?_cons_zero, Option.some.injEq] at hr
              exact Or.inl (Prod.ext hj hr.symm)
            | succ j => exact Or.inr ⟨j, by omega, by simpa using hr, hg⟩
        · rw [h3]
          simp

/-- C118: the file of run names lists, in the order of the table, the name of each row that was generated,
followed by an underscore -/
theorem C118_names_partial (w : World P G) (cwd : Str) (statusFile : Option Str) (csvFile : Str)
    (given : Option Str) (fs : Files (Content P)) (c : Content P) (dir : Str) (rows : List Row)
    (hc : fs (w.abspath csvFile) = some c) (ht : Target w cwd given dir) (hd : w.isDir dir = true)
    (hr : w.read c = .ok rows) (hh : ∀ (i : Nat) r, rows[i]? = some r → Handled w.env dir i r)
    (hn : statusFile ≠ some (w.namesFile dir (w.abspath csvFile))) :
    ∃ (names : List Str) (idx : List (Nat × Row)),
      (protocol w cwd statusFile csvFile given fs).1 (w.namesFile dir (w.abspath csvFile)) = some (.names names) ∧
      idx.Pairwise (fun a b => a.1 < b.1) ∧
      (∀ i r, (i, r) ∈ idx ↔ rows[i]? = some r ∧ ∃ n p, Generates w.env dir i r n p) ∧
      List.Forall₂ (fun x n => ∃ stem, Spec.Generate.Names x.2 stem ∧ n = stem ++ "_".toList) idx names := by
  obtain ⟨s, h1, -⟩ := loop_handled w.env dir 0 rows {}
    (fun j r hj => by rw [Nat.zero_add]; exact hh j r hj)
  have hgen : generateFiles w (w.abspath csvFile) dir c fs =
      (Batch.Files.write (writeAll fs s.written) (w.namesFile dir (w.abspath csvFile)) (.names s.names), .ok s) := by
    unfold generateFiles
    simp only [hr, h1]
  obtain ⟨idx, i1, i2, i3⟩ := loop_names w.env dir rows 0 {} s h1
  rw [target_iff] at ht
  subst ht
  refine ⟨s.names, idx, ?_, i1, ?_, ?_⟩
  · rw [protocol_eq w cwd statusFile csvFile given fs c hc hd _ _ hgen]
    simp only
    rw [report_other _ _ _ _ hn]
    simp [Batch.Files.write]
  · intro i r
    rw [i2]
    constructor
    · rintro ⟨j, hj, h, hg⟩
      simp only at hj h
      have : i = j := by omega
      subst this
      exact ⟨h, hg⟩
    · rintro ⟨h, hg⟩
      exact ⟨i, by simp, h, hg⟩
  · rw [i3]
    simp only [List.nil_append, List.forall₂_map_right_iff]
    exact List.forall₂_same.mpr (fun x _ => ⟨_, names_prefix x.2, rfl⟩)

/-! ### Concrete cases -/

/-- the rows of C56; a table is its own text, and only one can be read -/
def demoWorld : World Str Str where
  env := Props.Generate.demoEnv
  abspath := fun s => s
  isDir := fun d => d == "/o".toList
  md5 := fun _ => "m".toList
  read := fun c => match c with
    | .table t => if t = "good".toList then .ok Props.Generate.demoRows
        else .ok (Props.Generate.demoRows ++ [⟨"diagnosticV3.000".toList, "Drive".toList, 7⟩])
    | _ => .error (.other "ParserError".toList)
  namesFile := fun _ _ => "/o/names/x_names_.csv".toList

def demoFiles (t : String) : Files (Content Str) :=
  fun p => if p = "/c.csv".toList then some (.table t.toList) else none

/-- two of the five rows are not supported: an exception is reported, three files are listed -/
example : (match (protocol demoWorld "/".toList (some "/s.json".toList) "/c.csv".toList (some "/o".toList)
      (demoFiles "good")).2 with
    | .ok st => some (st.protocol.map (fun x => (String.ofList x.1, x.2)), st.traceback)
    | .error _ => none) =
    some ([("/o/procedures/Test_000001.000", true), ("/o/procedures/PreDiag_000003.000", true),
      ("/o/settings/Form_000123.mps", true)], some (.other "ProtocolException".toList)) := by decide +kernel

example : ∀ (i : Nat) r, Props.Generate.demoRows[i]? = some r → Handled demoWorld.env "/o".toList i r :=
  Props.Generate.demo_handled

/-- the sixth row raises: nothing is listed, but the files are there -/
example : (match protocol demoWorld "/".toList none "/c.csv".toList (some "/o".toList) (demoFiles "bad") with
    | (fs, .ok st) => some (st.protocol, (match fs "/o/settings/Form_000123.mps".toList with
        | some (.protocol p) => p | _ => []))
    | (_, .error _) => none) = some ([], "Form".toList) := by decide +kernel

end Beep.Props.ProtocolCmd
