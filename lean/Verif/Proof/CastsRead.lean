import Verif.Proof.CastsTable
/-
Lemmas for the readers.
-/
namespace Beep.Casts
open Beep Beep.Spec.Casts

theorem lowerOf_unique {s t : String} (h : LowerOf s t) : t = String.ofList (lower s) := by
  have h0 := lowerOf s
  unfold LowerOf at h h0
  have : ∀ (a b c : List Char), List.Forall₂ (fun a b : Char => if 'A' ≤ a ∧ a ≤ 'Z' then b.toNat = a.toNat + 32 else b = a) a b →
      List.Forall₂ (fun a b : Char => if 'A' ≤ a ∧ a ≤ 'Z' then b.toNat = a.toNat + 32 else b = a) a c → b = c := by
    intro a b c h1
    induction h1 generalizing c with
    | nil => intro h2; cases h2; rfl
    | cons hd _ ih =>
      intro h2
      cases h2 with
      | cons hd2 tl2 =>
        rw [ih _ tl2]
        congr 1
        split at hd
        · next hc => rw [if_pos hc] at hd2; exact Char.toNat_inj.mp (hd.trans hd2.symm)
        · next hc => rw [if_neg hc] at hd2; exact hd.trans hd2.symm
  have e := this _ _ _ h h0
  exact String.toList_inj.mp e

theorem lowerNames_forall (f : Frame) :
    List.Forall₂ (fun a b : String × List Cell => LowerOf a.1 b.1 ∧ b.2 = a.2) f (lowerNames f) := by
  unfold lowerNames
  rw [List.forall₂_map_right_iff]
  exact List.forall₂_same.mpr (fun a _ => ⟨lowerOf a.1, rfl⟩)

theorem rename_forall (t : List (String × String)) (f : Frame) :
    List.Forall₂ (fun a b : String × List Cell => b.1 = newName t a.1 ∧ b.2 = a.2) f (rename t f) := by
  unfold rename
  rw [List.forall₂_map_right_iff]
  exact List.forall₂_same.mpr (fun a _ => ⟨rfl, rfl⟩)

theorem forall₂_trans {α β γ : Type} {R : α → β → Prop} {S : β → γ → Prop} {l : List α} {m : List β} {n : List γ}
    (h1 : List.Forall₂ R l m) (h2 : List.Forall₂ S m n) : List.Forall₂ (fun a c => ∃ b, R a b ∧ S b c) l n := by
  induction h1 generalizing n with
  | nil => cases h2; exact .nil
  | cons h _ ih => cases h2 with
    | cons h' t' => exact .cons ⟨_, h, h'⟩ (ih t')

theorem arbin_sub : (∀ p ∈ arbinNames, p ∈ arbin) ∧ ∀ p ∈ arbin, p ∈ arbinNames := by decide +kernel
theorem maccor_sub : (∀ p ∈ maccorNames, p ∈ maccor) ∧ ∀ p ∈ maccor, p ∈ maccorNames := by decide +kernel
theorem neware_sub : (∀ p ∈ newareNames, p ∈ neware) ∧ ∀ p ∈ neware, p ∈ newareNames := by decide +kernel
theorem archive_sub : (∀ p ∈ archiveNames, p ∈ archive) ∧ ∀ p ∈ archive, p ∈ archiveNames := by decide +kernel

instance (d : DType) : Decidable d.sized := by
  cases d <;> unfold DType.sized <;> infer_instance

theorem arbin_agree : Agree arbinTypes arbinKinds where
  nodup := by decide +kernel
  sized := by decide +kernel
  kind := by decide +kernel
  of := by decide +kernel
  all := by decide +kernel

theorem neware_agree : Agree newareTypes newareKinds where
  nodup := by decide +kernel
  sized := by decide +kernel
  kind := by decide +kernel
  of := by decide +kernel
  all := by decide +kernel

theorem archive_agree : Agree archiveTypes archiveKinds where
  nodup := by decide +kernel
  sized := by decide +kernel
  kind := by decide +kernel
  of := by decide +kernel
  all := by decide +kernel

/-- Maccor's types with the state as text -/
def maccorFinal : List (String × DType) :=
  (maccorTypes.map (fun t => if t.1 = "state" then (t.1, .str) else t)) ++ [("_state", .str)]

theorem maccor_agree : Agree maccorFinal maccorKinds where
  nodup := by decide +kernel
  sized := by decide +kernel
  kind := by decide +kernel
  of := by decide +kernel
  all := by decide +kernel

theorem maccorTypes_nodup : (maccorTypes.map Prod.fst).Nodup := by decide +kernel

theorem typeOf_of_mem {ts : List (String × DType)} (hn : (ts.map Prod.fst).Nodup) {n : String} {d : DType} (h : (n, d) ∈ ts) :
    typeOf ts n = some d := by
  induction ts with
  | nil => cases h
  | cons t ts ih =>
    rw [List.map_cons, List.nodup_cons] at hn
    obtain ⟨c, d'⟩ := t
    rw [typeOf_cons]
    rcases List.mem_cons.mp h with e | h
    · cases e; rw [if_pos rfl]
    · rw [if_neg, ih hn.2 h]
      rintro rfl
      have := List.mem_map_of_mem (f := Prod.fst) h
      exact hn.1 this

theorem newName_state (n : String) : newName maccorNames n = "_state" ↔ n = "state" ∨ n = "_state" := by
  constructor
  · intro h
    have hp := newName_published (t := maccorNames) (t' := maccorNames) (fun _ h => h) (fun _ h => h) n
    rw [h] at hp
    rcases hp with hp | ⟨_, hp⟩
    · left
      have : ∀ p ∈ maccorNames, p.2 = "_state" → p.1 = "state" := by decide +kernel
      exact this _ hp rfl
    · exact .inr hp.symm
  · rintro (rfl | rfl) <;> decide +kernel

theorem maccorFinal_mem {n : String} {d : DType} (h : (n, d) ∈ maccorFinal) :
    ((n = "state" ∨ n = "_state") ∧ d = .str) ∨ (n ≠ "state" ∧ n ≠ "_state" ∧ (n, d) ∈ maccorTypes) := by
  have : ∀ t ∈ maccorFinal, ((t.1 = "state" ∨ t.1 = "_state") ∧ t.2 = .str) ∨
      (t.1 ≠ "state" ∧ t.1 ≠ "_state" ∧ t ∈ maccorTypes) := by decide +kernel
  exact this _ h

theorem castCategory (xs ys : List Cell) (h : castColumn .category xs = .ok ys) : ys = xs := by
  have hf := castColumn_ok h
  clear h
  induction hf with
  | nil => rfl
  | @cons a b l m h1 _ ih =>
    have e : b = a := by cases a <;> simp only [castCell, Except.ok.injEq] at h1 <;> exact h1.symm
    rw [e, ih]

theorem maccor_state_type : typeOf maccorTypes "state" = some .category := by decide +kernel
theorem maccor_ustate_type : typeOf maccorTypes "_state" = none := by decide +kernel

/-- what reading a Maccor file does to each column -/
theorem maccorTable_ok {f g : Frame} (h : maccorTable f = .ok g) :
    List.Forall₂ (fun a b => ∃ n, LowerOf a.1 n ∧ Published maccor n b.1 ∧ StoredAs maccorKinds n a.2 b.2) f g := by
  unfold maccorTable at h
  split at h
  · cases h
  · next g1 h1 =>
    unfold astype at h1
    split at h1
    · have a1 := lowerNames_forall f
      have a2 := castAll_ok maccorTypes_nodup h1
      have a3 := rename_forall maccorNames g1
      have a4 := castNamed_ok h
      refine (forall₂_trans a1 (forall₂_trans a2 (forall₂_trans a3 a4))).imp ?_
      rintro a b ⟨p, ⟨hp1, hp2⟩, q, ⟨hq1, hq2, hq3⟩, r, ⟨hr1, hr2⟩, hb1, hb2, hb3⟩
      refine ⟨p.1, hp1, ?_, ?_⟩
      · rw [hb1, hr1, hq1]; exact newName_published maccor_sub.1 maccor_sub.2 _
      · rw [← hp2]
        apply maccor_agree.storedAs
        · intro d hd
          rcases maccorFinal_mem (typeOf_mem hd) with ⟨hs, rfl⟩ | ⟨h1, h2, hm⟩
          · have hr : r.1 = "_state" := by rw [hr1, hq1]; exact (newName_state _).mpr hs
            have := hb2 hr
            rw [hr2] at this
            rcases hs with hs | hs
            · rw [castCategory _ _ (hq2 .category (by rw [hs]; exact maccor_state_type))] at this
              exact this
            · rw [hq3 (by rw [hs]; exact maccor_ustate_type)] at this
              exact this
          · have hr : r.1 ≠ "_state" := by
              rw [hr1, hq1]; intro e
              rcases (newName_state _).mp e with e | e
              · exact h1 e
              · exact h2 e
            rw [hb3 hr, hr2]
            exact hq2 d (typeOf_of_mem maccorTypes_nodup hm)
        · intro hd
          have hnot : p.1 ∉ maccorFinal.map Prod.fst := by
            intro hc
            obtain ⟨d, hd'⟩ := typeOf_some hc
            rw [hd] at hd'; cases hd'
          have hkeys : ∀ n, n = "state" ∨ n = "_state" ∨ n ∈ maccorTypes.map Prod.fst → n ∈ maccorFinal.map Prod.fst := by
            have : ∀ m ∈ maccorTypes.map Prod.fst, m ∈ maccorFinal.map Prod.fst := by decide +kernel
            rintro n (rfl | rfl | h)
            · decide +kernel
            · decide +kernel
            · exact this _ h
          have hr : r.1 ≠ "_state" := by
            rw [hr1, hq1]; intro e
            rcases (newName_state _).mp e with e | e
            · exact hnot (hkeys _ (.inl e))
            · exact hnot (hkeys _ (.inr (.inl e)))
          rw [hb3 hr, hr2]
          exact hq3 (typeOf_none (fun h => hnot (hkeys _ (.inr (.inr h)))))
    · cases h1

theorem newareTable_ok {f g : Frame} (h : newareTable f = .ok g) :
    List.Forall₂ (fun a b => Published neware a.1 b.1 ∧ StoredAs newareKinds a.1 a.2 b.2) f g := by
  unfold newareTable at h
  split at h
  · cases h
  · next g1 h1 =>
    cases h
    unfold astype at h1
    split at h1
    · refine (forall₂_trans (castAll_ok neware_agree.nodup h1) (rename_forall newareNames g1)).imp ?_
      rintro a b ⟨q, ⟨hq1, hq2, hq3⟩, hb1, hb2⟩
      rw [hb1, hb2, hq1]
      exact ⟨newName_published neware_sub.1 neware_sub.2 _, neware_agree.storedAs hq2 hq3⟩
    · cases h1

theorem mem_lowerNames {f : Frame} {n : String} {cells : List Cell} :
    (∃ p ∈ lowerNames f, p.1 = n ∧ p.2 = cells) ↔ ∃ a ∈ f, LowerOf a.1 n ∧ a.2 = cells := by
  constructor
  · rintro ⟨p, hp, rfl, rfl⟩
    obtain ⟨a, ha, h1, h2⟩ := forall₂_mem_right (lowerNames_forall f) p hp
    exact ⟨a, ha, h1, h2.symm⟩
  · rintro ⟨a, ha, h1, rfl⟩
    refine ⟨(String.ofList (lower a.1), a.2), List.mem_map_of_mem (f := fun p : String × List Cell => (String.ofList (lower p.1), p.2)) ha, (lowerOf_unique h1).symm, rfl⟩

theorem hasNull_lower (f : Frame) (n : String) : hasNull n (lowerNames f) = true ↔ Gap f n := by
  rw [hasNull_iff]
  constructor
  · rintro ⟨p, hp, rfl, hx⟩
    obtain ⟨a, ha, h1, h2⟩ := forall₂_mem_right (lowerNames_forall f) p hp
    exact ⟨a, ha, h1, h2 ▸ hx⟩
  · rintro ⟨a, ha, h1, hx⟩
    obtain ⟨p, hp, h3, h4⟩ := forall₂_mem_left (lowerNames_forall f) a ha
    exact ⟨p, hp, (lowerOf_unique h3).trans (lowerOf_unique h1).symm, h4 ▸ hx⟩

theorem arbinTable_ok {f g : Frame} (h : arbinTable f = .ok g) :
    List.Forall₂ (fun a b => ∃ n, LowerOf a.1 n ∧ Published arbin n b.1 ∧
      (¬Gap (f.drop 1) n → StoredAs arbinKinds n a.2 b.2) ∧ (Gap (f.drop 1) n → b.2 = a.2)) (f.drop 1) g := by
  unfold arbinTable dropIndex at h
  split at h
  · cases h
  · next g1 h1 =>
    cases h
    have a1 := lowerNames_forall (f.drop 1)
    have a2 := castComplete_ok arbin_agree.nodup (fun n => hasNull n (lowerNames (f.drop 1))) (fun _ _ => rfl) h1
    have a3 := rename_forall arbinNames g1
    refine (forall₂_trans a1 (forall₂_trans a2 a3)).imp ?_
    rintro a b ⟨p, ⟨hp1, hp2⟩, q, ⟨hq1, hq2, hq3⟩, hb1, hb2⟩
    refine ⟨p.1, hp1, ?_, ?_, ?_⟩
    · rw [hb1, hq1]; exact newName_published arbin_sub.1 arbin_sub.2 _
    · intro hg
      have hf : hasNull p.1 (lowerNames (f.drop 1)) = false := by
        apply eq_false_of_ne_true; intro hc; exact hg ((hasNull_lower _ _).mp hc)
      rw [← hp2, hb2]
      exact arbin_agree.storedAs (fun d hd => hq2 d hd hf) (fun hd => hq3 (.inl hd))
    · intro hg
      rw [hb2, hq3 (.inr ((hasNull_lower _ _).mpr hg)), hp2]

theorem archive_kept (f : Frame) : ∃ k, Kept f k ∧
    (lowerNames f).filter (fun p => !decide (p.1 = "environment_temperature (c)")) = lowerNames k := by
  refine ⟨f.filter (fun p => !decide (String.ofList (lower p.1) = "environment_temperature (c)")), ⟨List.filter_sublist, ?_, ?_⟩, ?_⟩
  · intro c hc hl
    have := (List.mem_filter.mp hc).2
    rw [← lowerOf_unique hl] at this
    simp at this
  · intro c hc hl
    refine List.mem_filter.mpr ⟨hc, ?_⟩
    simp only [Bool.not_eq_eq_eq_not, Bool.not_true, decide_eq_false_iff_not]
    intro e
    exact hl (e ▸ lowerOf c.1)
  · unfold lowerNames
    rw [List.filter_map]
    rfl

theorem published_unique {t : List (String × String)} (hn : (t.map Prod.fst).Nodup) {a b c : String}
    (h1 : Published t a b) (h2 : Published t a c) : b = c := by
  rcases h1 with h1 | ⟨h1, rfl⟩ <;> rcases h2 with h2 | ⟨h2, rfl⟩
  · have : ∀ t : List (String × String), (t.map Prod.fst).Nodup → (a, b) ∈ t → (a, c) ∈ t → b = c := by
      intro t
      induction t with
      | nil => intro _ h; cases h
      | cons x t ih =>
        intro hn h1 h2
        rw [List.map_cons, List.nodup_cons] at hn
        rcases List.mem_cons.mp h1 with e1 | h1 <;> rcases List.mem_cons.mp h2 with e2 | h2
        · exact congrArg Prod.snd (e1.trans e2.symm)
        · have m := List.mem_map_of_mem (f := Prod.fst) h2
          subst e1
          exact absurd m hn.1
        · have m := List.mem_map_of_mem (f := Prod.fst) h1
          subst e2
          exact absurd m hn.1
        · exact ih hn.2 h1 h2
    exact this t hn h1 h2
  · exact absurd h1 (h2 _)
  · exact absurd h2 (h1 _)
  · rfl

theorem hasNull_archive (k : Frame) (n : String) : hasNull n (rename archiveNames (lowerNames k)) = true ↔ ArchiveGap k n := by
  rw [hasNull_iff]
  have a := forall₂_trans (lowerNames_forall k) (rename_forall archiveNames (lowerNames k))
  constructor
  · rintro ⟨p, hp, rfl, hx⟩
    obtain ⟨c, hc, q, ⟨h1, h2⟩, h3, h4⟩ := forall₂_mem_right a p hp
    exact ⟨c, hc, q.1, h1, h3 ▸ newName_published archive_sub.1 archive_sub.2 _, by rw [← h2, ← h4]; exact hx⟩
  · rintro ⟨c, hc, m, h1, h2, hx⟩
    obtain ⟨p, hp, q, ⟨h3, h4⟩, h5, h6⟩ := forall₂_mem_left a c hc
    refine ⟨p, hp, ?_, by rw [h6, h4]; exact hx⟩
    rw [h5]
    have e : q.1 = m := (lowerOf_unique h3).trans (lowerOf_unique h1).symm
    rw [e]
    exact published_unique (t := archive) (by decide +kernel) (newName_published archive_sub.1 archive_sub.2 m) h2

theorem archiveTable_ok {f g : Frame} (h : archiveTable f = .ok g) : ∃ k, Kept f k ∧
    List.Forall₂ (fun a b => ∃ n, LowerOf a.1 n ∧ Published archive n b.1 ∧
      (¬ArchiveGap k b.1 → StoredAs archiveKinds b.1 a.2 b.2) ∧ (ArchiveGap k b.1 → b.2 = a.2)) k g := by
  obtain ⟨k, hk, e⟩ := archive_kept f
  refine ⟨k, hk, ?_⟩
  unfold archiveTable at h
  rw [e] at h
  have a1 := forall₂_trans (lowerNames_forall k) (rename_forall archiveNames (lowerNames k))
  have a2 := castComplete_ok archive_agree.nodup (fun n => hasNull n (rename archiveNames (lowerNames k))) (fun _ _ => rfl) h
  refine (forall₂_trans a1 a2).imp ?_
  rintro a b ⟨q, ⟨p, ⟨hp1, hp2⟩, hq1, hq2⟩, hb1, hb2, hb3⟩
  refine ⟨p.1, hp1, ?_, ?_, ?_⟩
  · rw [hb1, hq1]; exact newName_published archive_sub.1 archive_sub.2 _
  · intro hg
    rw [hb1] at hg ⊢
    have hf : hasNull q.1 (rename archiveNames (lowerNames k)) = false := by
      apply eq_false_of_ne_true; intro hc; exact hg ((hasNull_archive _ _).mp hc)
    rw [← hp2, ← hq2]
    exact archive_agree.storedAs (fun d hd => hb2 d hd hf) (fun hd => hb3 (.inl hd))
  · intro hg
    rw [hb1] at hg
    rw [hb3 (.inr ((hasNull_archive _ _).mpr hg)), hq2, hp2]

theorem maccorTable_accepts (f : Frame) : (∃ g, maccorTable f = .ok g) ↔
    (∀ p ∈ maccor, ∃ c ∈ f, LowerOf c.1 p.1) ∧
      ∀ c ∈ f, ∀ n k, LowerOf c.1 n → HasKind maccorKinds n k → ∀ x ∈ c.2, Storable k x := by
  have keys : (∀ p ∈ maccor, p.1 ∈ maccorTypes.map Prod.fst) ∧ ∀ t ∈ maccorTypes, t.1 ∈ maccor.map Prod.fst := by
    decide +kernel
  have hmem : ∀ n, n ∈ names (lowerNames f) ↔ ∃ c ∈ f, LowerOf c.1 n := by
    intro n
    unfold names
    rw [List.mem_map]
    constructor
    · rintro ⟨p, hp, rfl⟩
      obtain ⟨a, ha, h1, _⟩ := forall₂_mem_right (lowerNames_forall f) p hp
      exact ⟨a, ha, h1⟩
    · rintro ⟨a, ha, h1⟩
      obtain ⟨p, hp, h2, _⟩ := forall₂_mem_left (lowerNames_forall f) a ha
      exact ⟨p, hp, (lowerOf_unique h2).trans (lowerOf_unique h1).symm⟩
  have hall : (maccorTypes.all (fun t => (names (lowerNames f)).contains t.1) = true) ↔ ∀ p ∈ maccor, ∃ c ∈ f, LowerOf c.1 p.1 := by
    rw [List.all_eq_true]
    constructor
    · intro h p hp
      obtain ⟨t, ht, e⟩ := List.mem_map.mp (keys.1 p hp)
      have := h t ht
      rw [List.contains_iff_mem, e] at this
      exact (hmem _).mp this
    · intro h t ht
      obtain ⟨p, hp, e⟩ := List.mem_map.mp (keys.2 t ht)
      rw [List.contains_iff_mem, ← e]
      exact (hmem _).mpr (h p hp)
  have hfit : Fits maccorTypes (lowerNames f) ↔ ∀ c ∈ f, ∀ n k, LowerOf c.1 n → HasKind maccorKinds n k → ∀ x ∈ c.2, Storable k x := by
    have h1 : Fits maccorTypes (lowerNames f) ↔ Fits maccorFinal (lowerNames f) := by
      constructor
      · intro h p hp d hd x hx
        rcases maccorFinal_mem (typeOf_mem hd) with ⟨_, rfl⟩ | ⟨_, _, hm⟩
        · trivial
        · exact h p hp d (typeOf_of_mem maccorTypes_nodup hm) x hx
      · intro h p hp d hd x hx
        have : ∀ t ∈ maccorTypes, t.2 = .category ∨ t ∈ maccorFinal := by decide +kernel
        rcases this _ (typeOf_mem hd) with e | hm
        · have e : d = .category := e
          subst e; trivial
        · exact h p hp d (typeOf_of_mem maccor_agree.nodup hm) x hx
    rw [h1, maccor_agree.storable]
    constructor
    · intro h c hc n k hl hk x hx
      obtain ⟨p, hp, h2, h3⟩ := forall₂_mem_left (lowerNames_forall f) c hc
      have e : p.1 = n := (lowerOf_unique h2).trans (lowerOf_unique hl).symm
      exact h p hp k (e ▸ hk) x (h3 ▸ hx)
    · intro h p hp k hk x hx
      obtain ⟨c, hc, h2, h3⟩ := forall₂_mem_right (lowerNames_forall f) p hp
      exact h c hc p.1 k h2 hk x (h3 ▸ hx)
  rw [← hall, ← hfit]
  constructor
  · rintro ⟨g, h⟩
    unfold maccorTable at h
    split at h
    · cases h
    · next g1 h1 =>
      unfold astype at h1
      split at h1
      · next hc => exact ⟨hc, (castAll_ok_iff maccorTypes_nodup).mp ⟨g1, h1⟩⟩
      · cases h1
  · rintro ⟨hc, hf⟩
    obtain ⟨g1, h1⟩ := (castAll_ok_iff maccorTypes_nodup).mpr hf
    unfold maccorTable astype
    rw [if_pos hc, h1]
    show ∃ g, castNamed "_state" .str (rename maccorNames g1) = .ok g
    cases h : castNamed "_state" .str (rename maccorNames g1) with
    | ok g => exact ⟨g, rfl⟩
    | error e =>
      obtain ⟨_, _, _, _, x, _, hx⟩ := castNamed_error h
      exact absurd trivial hx

theorem maccorTable_missing (f : Frame) (p : String × String) (hp : p ∈ maccor) (h : ∀ c ∈ f, ¬LowerOf c.1 p.1) :
    maccorTable f = .error .keyError := by
  have keys : ∀ p ∈ maccor, p.1 ∈ maccorTypes.map Prod.fst := by decide +kernel
  have : ¬ (maccorTypes.all (fun t => (names (lowerNames f)).contains t.1) = true) := by
    rw [List.all_eq_true]
    intro hc
    obtain ⟨t, ht, e⟩ := List.mem_map.mp (keys p hp)
    have := hc t ht
    rw [List.contains_iff_mem, e] at this
    obtain ⟨q, hq, e2⟩ := List.mem_map.mp this
    obtain ⟨a, ha, h1, _⟩ := forall₂_mem_right (lowerNames_forall f) q hq
    exact h a ha (e2 ▸ h1)
  unfold maccorTable astype
  rw [if_neg this]

theorem maccorTable_error {f : Frame} {e : Err} (h : maccorTable f = .error e) (hp : ∀ p ∈ maccor, ∃ c ∈ f, LowerOf c.1 p.1) :
    e = .valueError := by
  unfold maccorTable at h
  split at h
  · next h1 =>
    cases h
    unfold astype at h1
    split at h1
    · exact castAll_error h1
    · next hc =>
      exfalso
      apply hc
      have keys : ∀ t ∈ maccorTypes, t.1 ∈ maccor.map Prod.fst := by decide +kernel
      rw [List.all_eq_true]
      intro t ht
      obtain ⟨p, hp', e⟩ := List.mem_map.mp (keys t ht)
      obtain ⟨c, hc, hl⟩ := hp p hp'
      obtain ⟨q, hq, h2, _⟩ := forall₂_mem_left (lowerNames_forall f) c hc
      rw [List.contains_iff_mem, ← e]
      unfold names
      rw [List.mem_map]
      exact ⟨q, hq, (lowerOf_unique h2).trans (lowerOf_unique hl).symm⟩
  · exact (castNamed_error h).1

/-! ### Structured results -/

theorem interpolatedTypes_agree : Agree interpolatedTypes interpolatedKinds where
  nodup := by decide +kernel
  sized := by decide +kernel
  kind := by decide +kernel
  of := by decide +kernel
  all := by decide +kernel

theorem summaryTypes_agree : Agree summaryTypes summaryKinds where
  nodup := by decide +kernel
  sized := by decide +kernel
  kind := by decide +kernel
  of := by decide +kernel
  all := by decide +kernel

theorem diagnosticSummaryTypes_agree : Agree diagnosticSummaryTypes diagnosticSummaryKinds where
  nodup := by decide +kernel
  sized := by decide +kernel
  kind := by decide +kernel
  of := by decide +kernel
  all := by decide +kernel

theorem diagnosticTypes_agree : Agree diagnosticTypes diagnosticKinds where
  nodup := by decide +kernel
  sized := by decide +kernel
  kind := by decide +kernel
  of := by decide +kernel
  all := by decide +kernel

theorem typeOf_filter (ts : List (String × DType)) (f : Frame) (n : String) (h : n ∈ names f) :
    typeOf (ts.filter (fun t => (names f).contains t.1)) n = typeOf ts n := by
  induction ts with
  | nil => rfl
  | cons t ts ih =>
    obtain ⟨c, d⟩ := t
    rw [List.filter_cons]
    split
    · rw [typeOf_cons, typeOf_cons, ih]
    · next hc =>
      rw [ih, typeOf_cons, if_neg]
      rintro rfl
      exact hc (List.contains_iff_mem.mpr h)

theorem castAvailable_eq (ts : List (String × DType)) (f : Frame) :
    castAvailable ts f = castAll (ts.filter (fun t => (names f).contains t.1)) f := by
  unfold castAvailable astype
  rw [if_pos]
  rw [List.all_eq_true]
  intro t ht
  exact (List.mem_filter.mp ht).2

theorem castAvailable_ok {ts : List (String × DType)} {ks : List (List String × Kind)} (ha : Agree ts ks) {f g : Frame}
    (h : castAvailable ts f = .ok g) :
    List.Forall₂ (fun a b => b.1 = a.1 ∧ StoredAs ks a.1 a.2 b.2) f g := by
  rw [castAvailable_eq] at h
  have hn : ((ts.filter (fun t => (names f).contains t.1)).map Prod.fst).Nodup := (List.filter_sublist.map _).nodup ha.nodup
  have h1 := castAll_ok hn h
  have hm : ∀ p ∈ f, p.1 ∈ names f := fun p hp => List.mem_map_of_mem (f := Prod.fst) hp
  have key : ∀ {l : Frame} {m : Frame} {R S : String × List Cell → String × List Cell → Prop}, List.Forall₂ R l m →
      (∀ p ∈ l, ∀ q, R p q → S p q) → List.Forall₂ S l m := by
    intro l m R S h
    induction h with
    | nil => intro _; exact .nil
    | cons h1 _ ih => intro hRS; exact .cons (hRS _ (List.mem_cons_self ..) _ h1) (ih (fun p hp => hRS p (List.mem_cons_of_mem _ hp)))
  refine key h1 ?_
  rintro p hp q ⟨e, h2, h3⟩
  rw [typeOf_filter ts f p.1 (hm p hp)] at h2 h3
  exact ⟨e, ha.storedAs h2 h3⟩

theorem castAvailable_accepts {ts : List (String × DType)} {ks : List (List String × Kind)} (ha : Agree ts ks) (f : Frame) :
    (∃ g, castAvailable ts f = .ok g) ↔ ∀ p ∈ f, ∀ k, HasKind ks p.1 k → ∀ x ∈ p.2, Storable k x := by
  have hn : ((ts.filter (fun t => (names f).contains t.1)).map Prod.fst).Nodup := (List.filter_sublist.map _).nodup ha.nodup
  rw [castAvailable_eq, castAll_ok_iff hn, ← ha.storable]
  have hm : ∀ p ∈ f, p.1 ∈ names f := fun p hp => List.mem_map_of_mem (f := Prod.fst) hp
  constructor
  · intro h p hp d hd
    exact h p hp d (by rw [typeOf_filter ts f p.1 (hm p hp)]; exact hd)
  · intro h p hp d hd
    rw [typeOf_filter ts f p.1 (hm p hp)] at hd
    exact h p hp d hd

end Beep.Casts
