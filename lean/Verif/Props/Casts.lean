import Verif.Proof.CastsTime
/-
C143: columns of raw files are published under their standard names.
C144: raw numbers are stored as exactly as the column's number type allows.
C145: Arbin time stamps.
-/
namespace Beep.Props.Casts
open Beep Beep.Casts Beep.Spec.Casts

/-! ### C143 -/

/-- A Maccor file that is read keeps its columns, in order, each under its published name. -/
theorem C143_maccor_names {f g : Frame} (h : maccorTable f = .ok g) :
    List.Forall₂ (fun a b => ∃ n, LowerOf a.1 n ∧ Published maccor n b.1) f g :=
  (maccorTable_ok h).imp (fun _ _ ⟨n, h1, h2, _⟩ => ⟨n, h1, h2⟩)

/-- An Arbin file keeps its columns except the first, which becomes the index. -/
theorem C143_arbin_names {f g : Frame} (h : arbinTable f = .ok g) :
    List.Forall₂ (fun a b => ∃ n, LowerOf a.1 n ∧ Published arbin n b.1) (f.drop 1) g :=
  (arbinTable_ok h).imp (fun _ _ ⟨n, h1, h2, _⟩ => ⟨n, h1, h2⟩)

/-- A Neware table keeps its columns; the case of its names matters. -/
theorem C143_neware_names {f g : Frame} (h : newareTable f = .ok g) :
    List.Forall₂ (fun a b => Published neware a.1 b.1) f g :=
  (newareTable_ok h).imp (fun _ _ h => h.1)

/-- A Battery Archive file keeps its columns except the temperature of the room. -/
theorem C143_archive_names {f g : Frame} (h : archiveTable f = .ok g) :
    ∃ k, Kept f k ∧ List.Forall₂ (fun a b => ∃ n, LowerOf a.1 n ∧ Published archive n b.1) k g := by
  obtain ⟨k, hk, h1⟩ := archiveTable_ok h
  exact ⟨k, hk, h1.imp (fun _ _ ⟨n, h1, h2, _⟩ => ⟨n, h1, h2⟩)⟩

/-- A Maccor file is accepted exactly when it has all columns of the table (in any case and order) and
every cell has a value in its column's type. -/
theorem C143_maccor_accepts (f : Frame) : (∃ g, maccorTable f = .ok g) ↔
    (∀ p ∈ maccor, ∃ c ∈ f, LowerOf c.1 p.1) ∧
      ∀ c ∈ f, ∀ n k, LowerOf c.1 n → HasKind maccorKinds n k → ∀ x ∈ c.2, Storable k x :=
  maccorTable_accepts f

/-- A missing column is a KeyError, anything else a ValueError. -/
theorem C143_maccor_errors {f : Frame} {e : Err} (h : maccorTable f = .error e) :
    ((∃ p ∈ maccor, ∀ c ∈ f, ¬LowerOf c.1 p.1) → e = .keyError) ∧
    ((∀ p ∈ maccor, ∃ c ∈ f, LowerOf c.1 p.1) → e = .valueError) := by
  constructor
  · rintro ⟨p, hp, hc⟩
    rw [maccorTable_missing f p hp hc] at h
    cases h; rfl
  · exact maccorTable_error h

/-- the published names of columns with different names are different, unless a column already bears
the published name of another -/
theorem published_inj {t : List (String × String)} (hk : (t.map Prod.snd).Nodup) {a b c : String}
    (h1 : Published t a c) (h2 : Published t b c) (ha : a ∈ t.map Prod.snd → a ∈ t.map Prod.fst)
    (hb : b ∈ t.map Prod.snd → b ∈ t.map Prod.fst) : a = b := by
  have inj : ∀ t : List (String × String), (t.map Prod.snd).Nodup → (a, c) ∈ t → (b, c) ∈ t → a = b := by
    intro t
    induction t with
    | nil => intro _ h; cases h
    | cons x t ih =>
      intro hn h1 h2
      rw [List.map_cons, List.nodup_cons] at hn
      rcases List.mem_cons.mp h1 with e1 | h1 <;> rcases List.mem_cons.mp h2 with e2 | h2
      · exact congrArg Prod.fst (e1.trans e2.symm)
      · have m := List.mem_map_of_mem (f := Prod.snd) h2
        subst e1
        exact absurd m hn.1
      · have m := List.mem_map_of_mem (f := Prod.snd) h1
        subst e2
        exact absurd m hn.1
      · exact ih hn.2 h1 h2
  have unl : ∀ {x : String}, (∀ n, (x, n) ∉ t) → x ∉ t.map Prod.fst := by
    intro x hx hm
    obtain ⟨p, hp, rfl⟩ := List.mem_map.mp hm
    exact hx p.2 hp
  rcases h1 with h1 | ⟨h1, e1⟩ <;> rcases h2 with h2 | ⟨h2, e2⟩
  · exact inj t hk h1 h2
  · subst e2
    exact absurd (hb (List.mem_map_of_mem (f := Prod.snd) h1)) (unl h2)
  · subst e1
    exact absurd (ha (List.mem_map_of_mem (f := Prod.snd) h2)) (unl h1)
  · exact e1.symm.trans e2

theorem distinct_of {t : List (String × String)} (hk : (t.map Prod.snd).Nodup) {f g : Frame}
    (h : List.Forall₂ (fun a b : String × List Cell => ∃ n, LowerOf a.1 n ∧ Published t n b.1) f g)
    (hd : f.Pairwise (fun a b => ∀ n m, LowerOf a.1 n → LowerOf b.1 m → n ≠ m))
    (hfree : ∀ a ∈ f, ∀ n, LowerOf a.1 n → n ∈ t.map Prod.snd → n ∈ t.map Prod.fst) : (names g).Nodup := by
  unfold names
  induction h with
  | nil => exact List.nodup_nil
  | @cons a b l m h1 h2 ih =>
    rw [List.pairwise_cons] at hd
    rw [List.map_cons, List.nodup_cons]
    refine ⟨?_, ih hd.2 (fun a ha => hfree a (List.mem_cons_of_mem _ ha))⟩
    intro hm
    obtain ⟨q, hq, e⟩ := List.mem_map.mp hm
    obtain ⟨p, hp, n2, hn2, hp2⟩ := forall₂_mem_right h2 q hq
    obtain ⟨n1, hn1, hp1⟩ := h1
    rw [e] at hp2
    exact hd.1 p hp n1 n2 hn1 hn2 (published_inj hk hp1 hp2 (hfree a (List.mem_cons_self ..) n1 hn1)
      (hfree p (List.mem_cons_of_mem _ hp) n2 hn2))

/-- Different columns of a Maccor file stay different, **if** their names differ by more than case and
no column already bears another's published name. -/
theorem C143_maccor_distinct_partial {f g : Frame} (h : maccorTable f = .ok g)
    (hd : f.Pairwise (fun a b => ∀ n m, LowerOf a.1 n → LowerOf b.1 m → n ≠ m))
    (hfree : ∀ a ∈ f, ∀ n, LowerOf a.1 n → n ∈ maccor.map Prod.snd → n ∈ maccor.map Prod.fst) : (names g).Nodup :=
  distinct_of (t := maccor) (by decide +kernel) (C143_maccor_names h) hd hfree

/-- The same for Arbin files. -/
theorem C143_arbin_distinct_partial {f g : Frame} (h : arbinTable f = .ok g)
    (hd : (f.drop 1).Pairwise (fun a b => ∀ n m, LowerOf a.1 n → LowerOf b.1 m → n ≠ m))
    (hfree : ∀ a ∈ f.drop 1, ∀ n, LowerOf a.1 n → n ∈ arbin.map Prod.snd → n ∈ arbin.map Prod.fst) : (names g).Nodup :=
  distinct_of (t := arbin) (by decide +kernel) (C143_arbin_names h) hd hfree

theorem two_of {R : String × List Cell → String × List Cell → Prop} {f g : Frame} (h : List.Forall₂ R f g) {a b : String × List Cell}
    {n : String} (hs : [a, b].Sublist f) (ha : ∀ q, R a q → q.1 = n) (hb : ∀ q, R b q → q.1 = n) : ¬(names g).Nodup := by
  have hsub : ∀ {l : Frame} {f g : Frame}, List.Forall₂ R f g → l.Sublist f → ∃ m, m.Sublist g ∧ List.Forall₂ R l m := by
    intro l f g h hs
    induction hs generalizing g with
    | slnil => cases h; exact ⟨[], .slnil, .nil⟩
    | cons x hs ih => cases h with
      | cons h1 h2 => obtain ⟨m, hm, hR⟩ := ih h2; exact ⟨m, hm.cons _, hR⟩
    | cons_cons x hs ih => cases h with
      | cons h1 h2 => obtain ⟨m, hm, hR⟩ := ih h2; exact ⟨_ :: m, hm.cons_cons _, .cons h1 hR⟩
  obtain ⟨m, hm, hR⟩ := hsub h hs
  cases hR with
  | @cons _ p _ m h1 h2 => cases h2 with
    | @cons _ q _ m h3 h4 =>
      cases h4
      intro hn
      have := (hm.map Prod.fst).nodup hn
      simp [ha p h1, hb q h3] at this

/-- A Maccor file with both a column `Amps` and a column `Current` is read into a table with two
columns of the same name: the claim fails for every such file. -/
theorem C143_maccor_distinct_violated {f g : Frame} (h : maccorTable f = .ok g) {a b : String × List Cell}
    (hs : [a, b].Sublist f) (ha : LowerOf a.1 "amps") (hb : LowerOf b.1 "current") : ¬(names g).Nodup := by
  refine two_of (n := "current") (C143_maccor_names h) hs ?_ ?_
  · rintro q ⟨n, hn, hp⟩
    have e : n = "amps" := (lowerOf_unique hn).trans (lowerOf_unique ha).symm
    subst e
    rcases hp with hp | ⟨hp, _⟩
    · exact (by decide +kernel : ∀ p ∈ maccor, p.1 = "amps" → p.2 = "current") _ hp rfl
    · exact absurd (by decide +kernel) (hp "current")
  · rintro q ⟨n, hn, hp⟩
    have e : n = "current" := (lowerOf_unique hn).trans (lowerOf_unique hb).symm
    subst e
    rcases hp with hp | ⟨_, hp⟩
    · exact absurd rfl ((by decide +kernel : ∀ p ∈ maccor, p.1 ≠ "current") _ hp)
    · exact hp

/-- a Maccor file with a row -/
def sample : Frame :=
  [("Rec#", [.num 1]), ("Cyc#", [.num 0]), ("Step", [.num 1]), ("Test (Sec)", [.num (3 / 10)]), ("Step (Sec)", [.num (3 / 10)]),
   ("Amp-hr", [.num 0]), ("Watt-hr", [.num 0]), ("Amps", [.num (1 / 10)]), ("Volts", [.num (7 / 2)]), ("State", [.text "R"]),
   ("ES", [.num 1]), ("DPt Time", [.text "01/01/2020 00:00:00"])] ++
  ["ACImp/Ohms", "DCIR/Ohms", "WF Chg Cap", "WF Dis Cap", "WF Chg E", "WF Dis E", "Range"].map (fun n => (n, [.num 0])) ++
  (List.range 15).map (fun i => ("VAR" ++ toString (i + 1), [.num 70000]))

/-- the names of the table that is read, if it is -/
def readNames (r : Except Err Frame) : Option (List String) := r.toOption.map names

example : (readNames (maccorTable sample)).map (fun l => l.take 12) =
    some ["data_point", "cycle_index", "step_index", "test_time", "step_time", "_capacity", "_energy", "current",
      "voltage", "_state", "_ending_status", "date_time"] := by decide +kernel

example : readNames (maccorTable (sample.drop 1)) = none := by decide +kernel

example : (readNames (maccorTable (("Current", [.num 1]) :: sample))).map (fun l => decide (l.count "current" = 2)) = some true := by
  decide +kernel

example : readNames (arbinTable [("", [.num 0]), ("Data_Point", [.num 1]), ("DateTime", [.num 1494377253]), ("dV/dt", [.num 0]), ("Aux", [.num 0])]) =
    some ["data_point", "date_time", "_dv/dt", "aux"] := by decide +kernel

/-! ### C144 -/

/-- Every cell of a Maccor file is stored in its column's number type. -/
theorem C144_maccor_stored {f g : Frame} (h : maccorTable f = .ok g) :
    List.Forall₂ (fun a b => ∃ n, LowerOf a.1 n ∧ StoredAs maccorKinds n a.2 b.2) f g :=
  (maccorTable_ok h).imp (fun _ _ ⟨n, h1, _, h2⟩ => ⟨n, h1, h2⟩)

/-- Arbin columns without a gap are stored in their number type, the others as they were read. -/
theorem C144_arbin_stored {f g : Frame} (h : arbinTable f = .ok g) :
    List.Forall₂ (fun a b => ∃ n, LowerOf a.1 n ∧ (¬Gap (f.drop 1) n → StoredAs arbinKinds n a.2 b.2) ∧
      (Gap (f.drop 1) n → b.2 = a.2)) (f.drop 1) g :=
  (arbinTable_ok h).imp (fun _ _ ⟨n, h1, _, h2⟩ => ⟨n, h1, h2⟩)

/-- Neware columns are stored in their number type. -/
theorem C144_neware_stored {f g : Frame} (h : newareTable f = .ok g) :
    List.Forall₂ (fun a b => StoredAs newareKinds a.1 a.2 b.2) f g :=
  (newareTable_ok h).imp (fun _ _ h => h.2)

/-- Battery Archive columns without a gap are stored in their number type, the others as they were read. -/
theorem C144_archive_stored {f g : Frame} (h : archiveTable f = .ok g) :
    ∃ k, Kept f k ∧ List.Forall₂ (fun a b => ∃ n, LowerOf a.1 n ∧ Published archive n b.1 ∧
      (¬ArchiveGap k b.1 → StoredAs archiveKinds b.1 a.2 b.2) ∧ (ArchiveGap k b.1 → b.2 = a.2)) k g :=
  archiveTable_ok h

/-- Structured results keep their columns and names; the columns of a number type are stored in it, and
a result is refused exactly when a cell has no value in its column's type (a missing step or cycle
number). -/
theorem C144_structured {ts : List (String × DType)} {ks : List (List String × Kind)}
    (hk : (ts, ks) ∈ [(interpolatedTypes, interpolatedKinds), (summaryTypes, summaryKinds),
      (diagnosticSummaryTypes, diagnosticSummaryKinds), (diagnosticTypes, diagnosticKinds)]) (f : Frame) :
    (∀ g, castAvailable ts f = .ok g → List.Forall₂ (fun a b => b.1 = a.1 ∧ StoredAs ks a.1 a.2 b.2) f g) ∧
    ((∃ g, castAvailable ts f = .ok g) ↔ ∀ c ∈ f, ∀ k, HasKind ks c.1 k → ∀ x ∈ c.2, Storable k x) := by
  have ha : Agree ts ks := by
    simp only [List.mem_cons, Prod.mk.injEq, List.not_mem_nil, or_false] at hk
    rcases hk with ⟨rfl, rfl⟩ | ⟨rfl, rfl⟩ | ⟨rfl, rfl⟩ | ⟨rfl, rfl⟩
    · exact interpolatedTypes_agree
    · exact summaryTypes_agree
    · exact diagnosticSummaryTypes_agree
    · exact diagnosticTypes_agree
  exact ⟨fun g h => castAvailable_ok ha h, castAvailable_accepts ha f⟩

example : (castAvailable summaryTypes [("paused", [.nan])]).toOption = none ∧
    (castAvailable summaryTypes [("paused", [.num 0]), ("CV_time", [.nan, .num (1 / 3)])]).toOption =
      some [("paused", [.num 0]), ("CV_time", [.nan, .num (11184811 / 33554432)])] := by decide +kernel

/-- Single precision keeps 24 significant bits of every number it can hold: the relative error is at
most `2^-24`. -/
theorem C144_single_error {x y : Rat} (h : Stored b32 (.num x) (.num y)) (hx : (2 : Rat) ^ (-126 : Int) ≤ |x|) :
    |x - y| ≤ |x| * (2 : Rat) ^ (-24 : Int) := by
  obtain ⟨r, hr, e⟩ := h
  split at e
  · cases e; exact nearest_close 24 (by norm_num) _ x y hr hx
  · cases e

/-- Half precision keeps 11 significant bits. -/
theorem C144_half_error {x y : Rat} (h : Stored b16 (.num x) (.num y)) (hx : (2 : Rat) ^ (-14 : Int) ≤ |x|) :
    |x - y| ≤ |x| * (2 : Rat) ^ (-11 : Int) := by
  obtain ⟨r, hr, e⟩ := h
  split at e
  · cases e; exact nearest_close 11 (by norm_num) _ x y hr hx
  · cases e

/-- Whole numbers up to `2^24` are exact in single precision. -/
theorem C144_single_exact {n : Int} {y : Cell} (h : Stored b32 (.num n) y) (hn : |n| ≤ 2 ^ 24) : y = .num n := by
  obtain ⟨r, hr, e⟩ := h
  have er : r = n := nearest_exact _ _ _ _ hr (int_isFloat 24 (by norm_num) _ (by norm_num) n hn)
  subst er
  rw [e, if_pos]
  have : |(n : Rat)| ≤ 2 ^ 24 := by exact_mod_cast hn
  refine lt_of_le_of_lt this ?_
  norm_num

/-- Whole numbers in the range of a signed type are exact. -/
theorem C144_signed_exact {b : Nat} {n : Int} {y : Cell} (h : Stored (.signed b) (.num n) y) (hb : 1 ≤ b)
    (h1 : -2 ^ (b - 1) ≤ n) (h2 : n < 2 ^ (b - 1)) : y = .num n := by
  obtain ⟨m, k, hm, l1, l2, e⟩ := h
  have em := whole_int _ _ hm
  subst em
  have hp : (2 : Int) ^ b = 2 ^ (b - 1) * 2 := by rw [← pow_succ]; congr 1; omega
  have hpos : (0 : Int) < 2 ^ (b - 1) := by positivity
  have hk : k = 0 := by
    rw [hp] at l1 l2
    by_contra hk
    rcases lt_or_gt_of_ne hk with h | h <;> nlinarith
  rw [e, hk]; simp

/-- Whole numbers in the range of an unsigned type are exact. -/
theorem C144_unsigned_exact {b : Nat} {n : Int} {y : Cell} (h : Stored (.unsigned b) (.num n) y)
    (h1 : 0 ≤ n) (h2 : n < 2 ^ b) : y = .num n := by
  obtain ⟨m, k, hm, l1, l2, e⟩ := h
  have em := whole_int _ _ hm
  subst em
  have hpos : (0 : Int) < 2 ^ b := by positivity
  have hk : k = 0 := by
    by_contra hk
    rcases lt_or_gt_of_ne hk with h | h <;> nlinarith
  rw [e, hk]; simp

theorem get_forall₂ {α β : Type} {R : α → β → Prop} {l : List α} {m : List β} (h : List.Forall₂ R l m) {i : Nat} {x : α} {y : β}
    (hx : l[i]? = some x) (hy : m[i]? = some y) : R x y := by
  induction h generalizing i with
  | nil => simp at hx
  | cons h _ ih =>
    cases i with
    | zero => simp at hx hy; subst hx; subst hy; exact h
    | succ i => simp at hx hy; exact ih hx hy

/-- A step number outside 16 bits is accepted and stored as another number: every such cell of every
Maccor file. -/
theorem C144_step_wraps_violated {f g : Frame} (h : maccorTable f = .ok g) {i j : Nat} {a b : String × List Cell}
    (ha : f[i]? = some a) (hb : g[i]? = some b) (hl : LowerOf a.1 "step") {n : Int} (hn : a.2[j]? = some (.num n))
    (ho : n < -2 ^ 15 ∨ 2 ^ 15 ≤ n) : b.2[j]? ≠ some (.num n) := by
  obtain ⟨m, hm, hs, _⟩ := get_forall₂ (C144_maccor_stored h) ha hb
  have em : m = "step" := (lowerOf_unique hm).trans (lowerOf_unique hl).symm
  subst em
  have hs := hs (.signed 16) ⟨["step"], by decide +kernel, by simp⟩
  intro e
  obtain ⟨w, k, hw, l1, l2, e2⟩ := get_forall₂ hs hn e
  have ew := whole_int _ _ hw
  subst ew
  have : ((w : Int) : Rat) = ((w + k * 2 ^ 16 : Int) : Rat) := by injection e2
  have : w = w + k * 2 ^ 16 := by exact_mod_cast this
  norm_num at l1 l2 ho
  omega

/-- A user variable of 65536 or more is accepted and stored as infinite: every such cell of every
Maccor file. -/
theorem C144_variable_overflow_violated {f g : Frame} (h : maccorTable f = .ok g) {i j : Nat} {a b : String × List Cell}
    (ha : f[i]? = some a) (hb : g[i]? = some b) (hl : LowerOf a.1 "var1") {x : Rat} (hx : a.2[j]? = some (.num x))
    (ho : 65536 ≤ x) {y : Cell} (hy : b.2[j]? = some y) : y = .inf false := by
  obtain ⟨m, hm, hs, _⟩ := get_forall₂ (C144_maccor_stored h) ha hb
  have em : m = "var1" := (lowerOf_unique hm).trans (lowerOf_unique hl).symm
  subst em
  have hs := hs b16 ⟨(List.range 15).map (fun i => "var" ++ toString (i + 1)), by decide +kernel, by decide +kernel⟩
  obtain ⟨r, hr, e⟩ := get_forall₂ hs hx hy
  have hf : IsFloat 11 (-14) 65536 := ⟨1, 16, by norm_num, by norm_num, by norm_num⟩
  have hge : 65536 ≤ r := by
    by_contra hc
    have h1 := hr.2.1 _ hf
    rw [abs_of_nonneg (by linarith), abs_of_nonneg (by linarith)] at h1
    linarith
  rw [e, if_neg]
  · simp; linarith
  · rw [abs_of_nonneg (by linarith)]
    norm_num
    linarith

/-- the cells of a column of the table that is read -/
def readColumn (r : Except Err Frame) (n : String) : Option (List Cell) :=
  r.toOption.bind (fun g => (column g n).toOption)

example : readColumn (maccorTable sample) "_var1" = some [.inf false] := by decide +kernel
example : readColumn (maccorTable sample) "step_index" = some [.num 1] := by decide +kernel
example : readColumn (maccorTable sample) "current" = some [.num (13421773 / 134217728)] := by decide +kernel
example : readColumn (maccorTable (("Step", [.num 40000]) :: sample.eraseIdx 2)) "step_index" = some [.num (-25536)] := by decide +kernel

/-! ### C145 -/

/-- The instant stored for a time of an Arbin file is the multiple of 128 seconds next to it, so it is
wrong by up to 64 seconds, and times keep their order. -/
theorem C145_arbin_time_partial {f g : Frame} {cells is : List Cell} (h : arbinRead f = .ok (g, is)) (hc : TimeColumn f cells)
    (hr : ∀ c ∈ cells, ∃ t, c = .num t ∧ Recent t) :
    List.Forall₂ (fun c i => ∃ t : Rat, ∃ k : Int, c = .num t ∧ i = .num (128000000 * k : Int) ∧ |t - 128 * k| ≤ 64) cells is ∧
    ∀ (i j : Nat) (t u v w : Rat), cells[i]? = some (.num t) → cells[j]? = some (.num u) → is[i]? = some (.num v) →
      is[j]? = some (.num w) → t ≤ u → v ≤ w := by
  have h1 := arbin_instants h hc hr
  constructor
  · have : ∀ {cells is : List Cell}, List.Forall₂ (fun c i => ∃ t, c = .num t ∧ i = .num ((128000000 * rne (t / 128) : Int) : Rat)) cells is →
        (∀ c ∈ cells, ∃ t, c = .num t ∧ Recent t) →
        List.Forall₂ (fun c i => ∃ t : Rat, ∃ k : Int, c = .num t ∧ i = .num (128000000 * k : Int) ∧ |t - 128 * k| ≤ 64) cells is := by
      intro cells is h
      induction h with
      | nil => intro _; exact .nil
      | cons h2 _ ih =>
        intro hr
        refine .cons ?_ (ih (fun c hc => hr c (List.mem_cons_of_mem _ hc)))
        obtain ⟨t, rfl, e⟩ := h2
        obtain ⟨t', e', ht⟩ := hr _ (List.mem_cons_self ..)
        cases e'
        exact ⟨t, rne (t / 128), rfl, e, (single_recent t ht).2⟩
    exact this h1 hr
  · intro i j t u v w ht hu hv hw hle
    obtain ⟨t', e1, e2⟩ := get_forall₂ h1 ht hv
    obtain ⟨u', e3, e4⟩ := get_forall₂ h1 hu hw
    cases e1; cases e3
    injection e2 with e2; injection e4 with e4
    rw [e2, e4]
    have := rne_mono (div_le_div_of_nonneg_right hle (by norm_num : (0 : Rat) ≤ 128))
    exact_mod_cast by omega

/-- The stored instant is the time of the record only for times that are multiples of 128 seconds: for
every other record of every Arbin file of our time it is wrong. -/
theorem C145_arbin_time_violated {f g : Frame} {cells is : List Cell} (h : arbinRead f = .ok (g, is)) (hc : TimeColumn f cells)
    (hr : ∀ c ∈ cells, ∃ t, c = .num t ∧ Recent t) {i : Nat} {t : Rat} (ht : cells[i]? = some (.num t))
    (hm : ∀ k : Int, t ≠ 128 * k) : is[i]? ≠ some (.num (t * 1000000)) := by
  intro e
  obtain ⟨t', k, e1, e2, _⟩ := get_forall₂ (C145_arbin_time_partial h hc hr).1 ht e
  cases e1
  injection e2 with e2
  apply hm k
  push_cast at e2
  linarith

/-- Durations measured by these instants are multiples of 128 seconds. -/
theorem C145_arbin_duration_violated {f g : Frame} {cells is : List Cell} (h : arbinRead f = .ok (g, is)) (hc : TimeColumn f cells)
    (hr : ∀ c ∈ cells, ∃ t, c = .num t ∧ Recent t) {i j : Nat} {v w : Rat} (hv : is[i]? = some (.num v)) (hw : is[j]? = some (.num w)) :
    ∃ k : Int, w - v = 128000000 * k := by
  have h1 := (C145_arbin_time_partial h hc hr).1
  have key : ∀ (i : Nat) v, is[i]? = some (.num v) → ∃ k : Int, v = 128000000 * k := by
    intro i v hv
    have hi : i < cells.length := by
      rw [h1.length_eq]
      by_contra hc
      rw [List.getElem?_eq_none (by omega)] at hv; cases hv
    obtain ⟨t, k, _, e, _⟩ := get_forall₂ h1 (List.getElem?_eq_getElem hi) hv
    injection e with e
    exact ⟨k, by rw [e]; push_cast; ring⟩
  obtain ⟨a, ha⟩ := key i v hv
  obtain ⟨b, hb⟩ := key j w hw
  exact ⟨b - a, by rw [ha, hb]; push_cast; ring⟩

/-- A file with a record without a time is not read at all. -/
theorem C145_arbin_missing_time {f : Frame} {cells : List Cell} (hc : TimeColumn f cells) (hn : Cell.nan ∈ cells) :
    ∃ e, arbinRead f = .error e := by
  unfold arbinRead
  cases hg : arbinTable f with
  | error e => exact ⟨e, rfl⟩
  | ok g =>
    obtain ⟨ts, h1, h2, _⟩ := arbin_time_column hg hc
    obtain ⟨e, he⟩ := instants_nan hn
    simp only [h1, h2 hn, he]
    exact ⟨e, rfl⟩

/-- an Arbin file with two records, 100 seconds apart -/
def arbinSample : Frame :=
  [("", [.num 0, .num 1]), ("Data_Point", [.num 0, .num 1]), ("DateTime", [.num (149437725317 / 100), .num (149437735317 / 100)]),
   ("Voltage", [.num 3, .num 4])]

example : TimeColumn arbinSample [.num (149437725317 / 100), .num (149437735317 / 100)] := by
  refine ⟨[("Data_Point", [.num 0, .num 1])], ("DateTime", _), [("Voltage", [.num 3, .num 4])], rfl, rfl, ?_, ?_⟩
  · have : "datetime" = String.ofList (lower "DateTime") := by decide +kernel
    rw [this]; exact lowerOf _
  · intro c hc n hn
    rw [lowerOf_unique hn]
    simp only [List.mem_singleton] at hc
    rcases hc with rfl | rfl <;> decide +kernel

example : Recent (149437725317 / 100) ∧ ∀ k : Int, (149437725317 / 100 : Rat) ≠ 128 * k := by
  constructor
  · unfold Recent; norm_num
  · intro k h
    have : (149437725317 : Rat) = 12800 * k := by linarith
    have : (149437725317 : Int) = 12800 * k := by exact_mod_cast this
    omega

example : (arbinRead arbinSample).toOption.map Prod.snd = some [.num 1494377216000000, .num 1494377344000000] := by decide +kernel

end Beep.Props.Casts
