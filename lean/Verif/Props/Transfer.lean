import Verif.Proof.Ingest
import Verif.Props.Batch
/-
C98 project transfer, C99 files fetched from S3, and C54 for `--automatic`.
-/
namespace Beep.Props.Transfer
open Beep Beep.Ingest Beep.Transfer Beep.Spec.Ingest Beep.Proof.Ingest

/-! ### C98 -/

/-- the first line of a text, with its line end, and what follows -/
theorem firstLine_append (s : Str) : (firstLine s).1 ++ (firstLine s).2 = s := by
  induction s with
  | nil => rfl
  | cons c s ih =>
    rw [firstLine]
    split
    · rfl
    · simp [ih]

theorem firstLine_line (l r : Str) (h : '\n' ∉ l) : firstLine (l ++ '\n' :: r) = (l ++ ['\n'], r) := by
  induction l with
  | nil => simp [firstLine]
  | cons c l ih =>
    have hc : c ≠ '\n' := by rintro rfl; simp at h
    rw [List.cons_append, firstLine, if_neg hc, ih (by simp at h; exact h.2)]
    rfl

/-- a text in which the old name stands once, in the first line -/
theorem replace_once (a b x y : Str) (hne : a ≠ []) (h : Once a (x ++ (a ++ y))) : replaceStr a b (x ++ (a ++ y)) = x ++ (b ++ y) := by
  obtain ⟨p, q, e, hu⟩ := h
  have h1 := hu x y (by simp)
  have h2 := (unpack2_ok a hne (x ++ (a ++ y)) x y).1
    (unpack2_once a hne _ x y (by simp) (fun a' b' e' => (hu a' b' e').trans h1.symm))
  rw [replaceStr, splitStr, splitGo_first a hne [] _ x y h2.1, splitGo_none a [] y h2.2]
  simp [Text.join]

/-- C98: the text meant for the new object is the old one with the new project name in the first line -/
theorem C98_text_partial (old new l1 l2 r : Str) (hne : old ≠ []) (h1 : '\n' ∉ l1 ++ (old ++ l2))
    (ho : Once old (l1 ++ (old ++ (l2 ++ ['\n'])))) :
    modified old new (l1 ++ (old ++ (l2 ++ '\n' :: r))) = l1 ++ (new ++ (l2 ++ '\n' :: r)) := by
  have e : l1 ++ (old ++ (l2 ++ '\n' :: r)) = (l1 ++ (old ++ l2)) ++ '\n' :: r := by simp
  have e2 : (l1 ++ (old ++ l2)) ++ ['\n'] = l1 ++ (old ++ (l2 ++ ['\n'])) := by simp
  rw [modified, e, firstLine_line _ _ h1]
  simp only
  rw [e2, replace_once old new l1 (l2 ++ ['\n']) hne ho]
  simp

/-- C98: if everything that was written has reached the disk, this text is uploaded; otherwise only a
beginning of it -/
theorem C98_upload_partial (flushed : Nat → Nat) (old new key content : Str) :
    (transfer flushed old new key content).2 <+: modified old new content ∧
    ((modified old new content).length ≤ flushed (modified old new content).length →
      (transfer flushed old new key content).2 = modified old new content) :=
  ⟨List.take_prefix .., fun h => List.take_of_length_le h⟩

/-- C98 fails: nothing of a text that fits into the buffer of the file is uploaded, the new object is
empty -/
theorem C98_empty_violated (flushed : Nat → Nat) (buffer : Nat) (hb : ∀ n, n < buffer → flushed n = 0)
    (old new key content : Str) (h : (modified old new content).length < buffer) :
    (transfer flushed old new key content).2 = [] := by
  simp only [transfer]
  rw [hb _ h]
  simp

/-- C98: the objects transferred are those whose key contains prefix and project and no excluded text,
in their order -/
theorem C98_list (objects : List Str) (pref project : Str) (excluded : List Str) :
    List.Sublist (listFiles objects pref project excluded) objects ∧
    ∀ k, k ∈ listFiles objects pref project excluded ↔
      k ∈ objects ∧ Batch.join pref project <:+: k ∧ ∀ e ∈ excluded, ¬ e <:+: k := by
  refine ⟨List.filter_sublist.trans List.filter_sublist, fun k => ?_⟩
  rw [listFiles, List.mem_filter, List.mem_filter, containsSub_iff, List.all_eq_true]
  constructor
  · rintro ⟨⟨h1, h2⟩, h3⟩
    refine ⟨h1, h2, fun e he hk => ?_⟩
    have := h3 e he
    rw [(containsSub_iff e k).2 hk] at this
    simp at this
  · rintro ⟨h1, h2, h3⟩
    refine ⟨⟨h1, h2⟩, fun e he => ?_⟩
    rw [Bool.not_eq_true', Bool.eq_false_iff]
    exact fun hk => h3 e he ((containsSub_iff e k).1 hk)

/-- C98 fails: the objects of every other project whose name begins with the name of the project are
transferred as well, unless excluded -/
theorem C98_list_violated (objects : List Str) (pref project x rest : Str) (hp : pref ≠ []) (hs : pref.getLast? ≠ some '/')
    (hq : project.head? ≠ some '/')
    (hk : pref ++ '/' :: (project ++ x ++ '_' :: rest) ∈ objects) (excluded : List Str)
    (he : ∀ e ∈ excluded, ¬ e <:+: pref ++ '/' :: (project ++ x ++ '_' :: rest)) :
    pref ++ '/' :: (project ++ x ++ '_' :: rest) ∈ listFiles objects pref project excluded := by
  rw [(C98_list objects pref project excluded).2]
  refine ⟨hk, ?_, he⟩
  rw [Batch.join, if_neg hq, if_neg (by rintro (h | h); exact hp h; exact hs h)]
  exact ⟨[], x ++ '_' :: rest, by simp⟩

/-- C98: the name of the new object is the old one with the new project name -/
theorem C98_name_partial (dir old new x y : Str) (hne : old ≠ []) (hd : dir ≠ []) (hs : dir.getLast? ≠ some '/')
    (hn : '/' ∉ x ++ (old ++ y)) (hn' : (x ++ (new ++ y)).head? ≠ some '/') (ho : Once old (x ++ (old ++ y))) :
    newName old new (dir ++ '/' :: (x ++ (old ++ y))) = dir ++ '/' :: (x ++ (new ++ y)) := by
  have hb : Batch.basename (dir ++ '/' :: (x ++ (old ++ y))) = x ++ (old ++ y) := by
    have := Proof.Batch.basename_append (dir ++ ['/']) (x ++ (old ++ y)) (.inr ⟨dir, rfl⟩) hn
    simpa using this
  rw [newName, hb, replace_once old new x y hne ho]
  have ht : (dir ++ '/' :: (x ++ (old ++ y))).take ((dir ++ '/' :: (x ++ (old ++ y))).length - (x ++ (old ++ y)).length - 1) = dir := by
    have hl : (dir ++ '/' :: (x ++ (old ++ y))).length - (x ++ (old ++ y)).length - 1 = dir.length := by
      simp only [List.length_append, List.length_cons]; omega
    rw [hl, List.take_left]
  rw [ht, Batch.join, if_neg hn', if_neg (by rintro (h | h); exact hd h; exact hs h)]

/-- C98 fails: different objects can get the same new name, since every occurrence is replaced; then
only the last one is kept -/
theorem C98_collision_violated : ∃ (old new : Str) (objects : List Str) (k l : Str),
    k ∈ listFiles objects "raw".toList old [] ∧ l ∈ listFiles objects "raw".toList old [] ∧ k ≠ l ∧
    newName old new k = newName old new l :=
  ⟨"Pre".toList, "Diag".toList, ["raw/Pre_Pre_1".toList, "raw/Pre_Diag_1".toList], "raw/Pre_Pre_1".toList, "raw/Pre_Diag_1".toList,
    by decide +kernel, by decide +kernel, by decide, by decide +kernel⟩

example : transfer (fun n => if n < 8192 then 0 else n) "PredictionDiagnostics".toList "PreDiag".toList
    "raw/PredictionDiagnostics_000109.092".toList "Procedure: PredictionDiagnostics_000109.000\n1\t2\n".toList =
    ("raw/PreDiag_000109.092".toList, []) := by decide +kernel

example : modified "PredictionDiagnostics".toList "PreDiag".toList "Procedure: PredictionDiagnostics_000109.000\n1\t2\n".toList =
    "Procedure: PreDiag_000109.000\n1\t2\n".toList := by decide +kernel

/-! ### C99 -/

variable {C : Type}

theorem fetch_other (dir : Str) (bucket : Str → Option C) (keys : List Str) (fs : Batch.Files C) (p : Str)
    (h : ∀ k ∈ keys, Batch.join dir (Batch.basename k) ≠ p) : keys.foldl (fetchOne dir bucket) fs p = fs p := by
  induction keys generalizing fs with
  | nil => rfl
  | cons k ks ih =>
    rw [List.foldl_cons, ih _ (fun k hk => h k (by simp [hk])), fetchOne]
    cases bucket k with
    | none => rfl
    | some c =>
      simp only
      rw [Batch.Files.write, if_neg (Ne.symm (h k (by simp)))]

/-- C99: if all keys exist and have different base names, every local file holds the contents of its
object, and all other files are as before -/
theorem C99_fetched_partial (dir : Str) (bucket : Str → Option C) (keys : List Str) (fs : Batch.Files C)
    (hb : ∀ k ∈ keys, (bucket k).isSome)
    (hd : ∀ k ∈ keys, ∀ l ∈ keys, Batch.join dir (Batch.basename k) = Batch.join dir (Batch.basename l) → k = l) :
    (fetch dir bucket keys fs).1 = keys.map (fun k => Batch.join dir (Batch.basename k)) ∧
    (∀ k ∈ keys, (fetch dir bucket keys fs).2 (Batch.join dir (Batch.basename k)) = bucket k) ∧
    ∀ p, p ∉ (fetch dir bucket keys fs).1 → (fetch dir bucket keys fs).2 p = fs p := by
  refine ⟨rfl, ?_, fun p hp => fetch_other dir bucket keys fs p (fun k hk e => hp (by simp only [fetch, List.mem_map]; exact ⟨k, hk, e⟩))⟩
  simp only [fetch]
  induction keys generalizing fs with
  | nil => simp
  | cons k ks ih =>
    intro l hl
    rw [List.foldl_cons]
    by_cases hm : l ∈ ks
    · exact ih (fetchOne dir bucket fs k) (fun k hk => hb k (by simp [hk])) (fun a ha b hb' => hd a (by simp [ha]) b (by simp [hb'])) l hm
    · have hlk : l = k := by simpa [hm] using hl
      subst hlk
      rw [fetch_other dir bucket ks _ _ (fun a ha e => hm (by rw [← hd a (by simp [ha]) l (by simp) e]; exact ha)), fetchOne]
      obtain ⟨c, hc⟩ := Option.isSome_iff_exists.1 (hb l (by simp))
      rw [hc]
      simp [Batch.Files.write]

/-- C99 fails: of two objects of the same base name only the later one is on disk; the file of the
earlier one is structured twice with the contents of the later one -/
theorem C99_same_name_violated (dir : Str) (bucket : Str → Option C) (pre mid post : List Str) (k l : Str) (fs : Batch.Files C)
    (c : C) (hl : bucket l = some c) (hn : Batch.basename k = Batch.basename l)
    (hp : ∀ m ∈ post, Batch.join dir (Batch.basename m) ≠ Batch.join dir (Batch.basename l)) :
    (fetch dir bucket (pre ++ k :: (mid ++ l :: post)) fs).2 (Batch.join dir (Batch.basename k)) = bucket l := by
  simp only [fetch]
  rw [List.foldl_append, List.foldl_cons, List.foldl_append, List.foldl_cons, hn, fetch_other _ _ _ _ _ hp, fetchOne, hl]
  simp [Batch.Files.write]

/-- C99 fails: a local file of the same name is overwritten -/
theorem C99_overwritten_violated (dir : Str) (bucket : Str → Option C) (k : Str) (c : C) (fs : Batch.Files C) (h : bucket k = some c) :
    (fetch dir bucket [k] fs).2 (Batch.join dir (Batch.basename k)) = some c := by
  simp [fetch, fetchOne, h, Batch.Files.write]

/-- C99: an argument is taken from S3 exactly if it is a key, and every argument is used once -/
theorem C99_arguments (keys files : List Str) :
    (∀ f, f ∈ (matchDirect keys files).2 ↔ f ∈ files ∧ f ∈ keys) ∧
    (∀ f, f ∈ (matchDirect keys files).1 ↔ f ∈ files ∧ f ∉ keys) ∧
    ((matchDirect keys files).1 ++ (matchDirect keys files).2).Perm files := by
  refine ⟨fun f => by simp [matchDirect], fun f => by simp [matchDirect], ?_⟩
  have := List.filter_append_perm (fun f => !keys.contains f) files
  simpa [matchDirect] using this

example : ∃ bucket : Str → Option Nat,
    (fetch "/tmp".toList bucket ["a/run.csv".toList, "b/run.csv".toList] (fun _ => none)).1 = ["/tmp/run.csv".toList, "/tmp/run.csv".toList] ∧
    (fetch "/tmp".toList bucket ["a/run.csv".toList, "b/run.csv".toList] (fun _ => none)).2 "/tmp/run.csv".toList = some 2 ∧
    bucket "a/run.csv".toList = some 1 :=
  ⟨fun k => if k = "a/run.csv".toList then some 1 else some 2, by decide +kernel, by decide +kernel, by decide +kernel⟩

/-! ### C54 with `--automatic` -/

open Batch in
theorem automatic_attempt {D : Type} (env : Env D C) (fs : Files C) (f out : Str) :
    (attempt env.automatic false fs f out).1.structured = false ∧ (attempt env.automatic false fs f out).2.1 = fs ∧
    (attempt env.automatic false fs f out).2.2 ≠ none := by
  unfold attempt
  split
  · simp
  · simp only
    split
    · simp
    · split
      · simp
      · split <;> simp [finish, Env.automatic]

theorem mem_set {α β : Type} [DecidableEq α] {d : Dict α β} {k : α} {v : β} {p : α × β} (h : p ∈ Dict.set d k v) :
    p ∈ d ∨ p = (k, v) := by
  induction d with
  | nil => simpa [Dict.set] using h
  | cons q d ih =>
    obtain ⟨a, b⟩ := q
    rw [Dict.set] at h
    split at h
    · rcases List.mem_cons.1 h with h | h
      · exact .inr h
      · exact .inl (by simp [h])
    · rcases List.mem_cons.1 h with h | h
      · exact .inl (by simp [h])
      · rcases ih h with h | h
        · exact .inl (by simp [h])
        · exact .inr h

open Batch in
theorem automatic_loop {D : Type} (env : Env D C) (o : Opts) (ho : o.validationOnly = false) (jobs : List (Str × Str)) :
    ∀ (st : Dict Str OpResult) (fs : Files C) (st' : Dict Str OpResult) (fs' : Files C),
    (∀ p ∈ st, p.2.structured = false) → (loop env.automatic o jobs st fs).1 = .done st' fs' →
    (∀ p ∈ st', p.2.structured = false) ∧ fs' = fs := by
  induction jobs with
  | nil =>
    intro st fs st' fs' h e
    simp only [loop, End.done.injEq] at e
    obtain ⟨rfl, rfl⟩ := e
    exact ⟨h, rfl⟩
  | cons j jobs ih =>
    intro st fs st' fs' h e
    obtain ⟨f, out⟩ := j
    have ha := automatic_attempt env fs f out
    have hset : ∀ r : OpResult, r.structured = false → ∀ p ∈ Dict.set st f r, p.2.structured = false := by
      intro r hr p hp
      rcases mem_set hp with h1 | h1
      · exact h p h1
      · rw [h1]; exact hr
    rw [loop, ho] at e
    rcases hx : attempt env.automatic false fs f out with ⟨r, fs1, x⟩
    rw [hx] at ha e
    simp only at ha
    obtain ⟨h1, rfl, h3⟩ := ha
    match x, h3 with
    | some .interrupt, _ => simp at e
    | some (.other w), _ =>
      simp only at e
      split at e
      · simp at e
      · exact ih _ fs1 st' fs' (hset { r with traceback := some (.other w) } h1) e

open Batch in
/-- C54 fails with `--automatic`: no file is ever structured, and no output is written -/
theorem C54_automatic_violated {D : Type} (env : Env D C) (o : Opts) (ho : o.validationOnly = false) (files : List Str)
    (fs : Files C) (st : Dict Str OpResult) (fs' : Files C) (l : List Str)
    (h : structure_ env.automatic o files fs = .ok (.done st fs', l)) :
    (report st).succeeded = [] ∧ fs' = fs := by
  unfold structure_ at h
  simp only at h
  split at h
  · cases h
  · split at h
    · cases h
    · rename_i outs _
      simp only [Except.ok.injEq] at h
      have h1 := congrArg Prod.fst h
      have := automatic_loop env o ho _ [] fs st fs' (by simp) h1
      refine ⟨?_, this.2⟩
      rw [List.eq_nil_iff_forall_not_mem]
      intro f hf
      have hm := (Proof.Batch.report_mem st f).1.1 hf
      obtain ⟨r, hr, _, h2⟩ := hm
      have := this.1 _ hr
      simp only at this
      rw [this] at h2
      cases h2

/-- with a valid file: it is reported as failed -/
example : ∃ (env : Batch.Env Nat Nat) (o : Batch.Opts) (st : Dict Str Batch.OpResult) (fs' : Batch.Files Nat) (l : List Str),
    Batch.structure_ env.automatic o ["/a.csv".toList] (fun p => if p = "/a.csv".toList then some 1 else none) = .ok (.done st fs', l) ∧
    (Batch.report st).failed = ["/a.csv".toList] :=
  ⟨⟨id, fun _ => [], fun _ c => .ok c, fun _ => [], fun _ => .ok (true, []), fun d => .ok d, fun _ => [], fun _ d => (d, none)⟩,
    { cwd := "/out".toList }, _, _, _, rfl, by decide +kernel⟩

end Beep.Props.Transfer
