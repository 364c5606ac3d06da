import Verif.Proof.ArbinFile
/-
C34: writing a schedule and reading it back.
-/
namespace Beep.Props.ArbinFile
open Beep Beep.Arbin Beep.Dash Beep.Text Beep.Spec.Dash Beep.Spec.Arbin

/-- C34: a schedule that fits into the format is written, and reading the file gives it back.
Missing: sections without plain entries. -/
theorem C34_round_trip_partial (o : Obj) (h : Fits false o) :
    ∃ text, toFile o = .ok text ∧ fromFile text = .ok o := by
  have hd := fits_distinct false o h
  obtain ⟨hg, hn⟩ := secs_good o false h [] (by intro k hk; cases hk)
  have hsplit := fits_split false o h
  have hfill := fill_spec o false h [] id .nil (fun y q w hq => by rw [List.nil_append]; show setP y q w = (setP y q w).map id; cases setP y q w <;> rfl) (by simp [Obj.keys])
  have hnodes : app .nil (nodes o) = o := by
    have : plain o = [] := by
      clear hd hg hn hsplit hfill
      induction o with
      | nil => rfl
      | leaf k v r _ => exact absurd h.1 (by decide)
      | node k s r _ ih => exact ih h.2.2.2.2
    rw [this] at hsplit
    exact hsplit
  rw [hnodes] at hfill
  rw [toFile_text o hd]
  cases hss : secs [] o with
  | nil =>
    rw [hss] at hfill
    cases hfill
    exact ⟨eol, by decide, by decide⟩
  | cons s ss =>
    rw [hss] at hg hn hfill
    have ht := fileText_eq (s :: ss) (by simp) (fun x hx => (hg x hx).2.2.1)
    rw [ht]
    refine ⟨fileText (s :: ss), ?_, ?_⟩
    · unfold latin1
      rw [if_pos]
      rw [List.all_eq_true]
      intro c hc
      exact decide_eq_true (latin_text _ hg c hc)
    · obtain ⟨h1, h2, h3⟩ := hg s (List.mem_cons_self ..)
      obtain ⟨n1, n2⟩ := name_facts s.1 h1 h2
      have hh := search_head (join ['_'] s.1) (bodyText s.2 ++ fileText ss) n1 n2
      have e : fileText (s :: ss) = '[' :: join ['_'] s.1 ++ ']' :: '\r' :: '\n' :: (bodyText s.2 ++ fileText ss) := by
        rw [fileText]; simp
      unfold fromFile
      rw [e, hh]
      simp only
      rw [show '\r' :: '\n' :: (bodyText s.2 ++ fileText ss) = '\r' :: '\n' :: bodyText s.2 ++ fileText ss by simp,
        sections_text s.1 s.2 ss h3.2.1 (fun x hx => hg x (List.mem_cons_of_mem _ hx))]
      have := addAll_eq .nil (s :: ss) hg hn
      rw [List.map_cons] at this
      rw [this]
      exact hfill

/-- C34 fails: a section without plain entries is written, but the file cannot be read. -/
theorem C34_empty_violated (k : Str) (hk : GoodName k) :
    ∃ text, toFile (.node k .nil .nil) = .ok text ∧ fromFile text = .error .valueError := by
  have hn := name_facts [k] (by simp) (by simpa using hk)
  rw [show join ['_'] [k] = k from rfl] at hn
  refine ⟨'[' :: k ++ ']' :: '\r' :: '\n' :: ['\r', '\n'], ?_, ?_⟩
  · rw [toFile_text (.node k .nil .nil) ⟨by simp [Obj.keys], trivial, trivial⟩]
    have e : join eol ((secs [] (.node k .nil .nil)).map secText) ++ eol = '[' :: k ++ ']' :: '\r' :: '\n' :: ['\r', '\n'] := by
      simp [secs, plain, secText, join, eol]
    rw [e]
    unfold latin1
    rw [if_pos]
    rw [List.all_eq_true]
    intro c hc
    apply decide_eq_true
    rw [List.mem_append] at hc
    rcases hc with hc | hc
    · rcases List.mem_cons.mp hc with e | e
      · subst e; decide
      · exact hk.2.1 c e
    · simp only [List.mem_cons, List.not_mem_nil, or_false] at hc
      rcases hc with rfl | rfl | rfl | rfl | rfl <;> decide
  · unfold fromFile
    rw [search_head k ['\r', '\n'] hn.1 hn.2]
    simp only
    rw [sections]
    split
    · rfl
    · rename_i h; exact absurd h (by simp [search])

/-- C34 fails: plain entries outside every section are not written. -/
theorem C34_top_level_violated (k v : Str) (o : Obj) (h : k ∉ o.keys) :
    toFile (.leaf k v o) = toFile o := by
  have hc : ∀ (hs : List (List Str)) (acc : List (List Str × Option Val)) (x : Obj),
      (∀ p ∈ hs, ∃ k' q, p = k' :: q ∧ k' ≠ k) →
      collect (.leaf k v x) hs acc = collect x hs acc := by
    intro hs
    induction hs with
    | nil => intro acc x _; rfl
    | cons p hs ih =>
      intro acc x hp
      obtain ⟨k', q, rfl, hne⟩ := hp p (List.mem_cons_self ..)
      rw [collect, collect, getP_leaf_ne _ _ _ _ _ (fun e => hne e.symm), unsetP_leaf_ne _ _ _ _ _ (fun e => hne e.symm),
        ih _ _ (fun p' hp' => hp p' (List.mem_cons_of_mem _ hp'))]
  have hh : ∀ x : Obj, ∀ p ∈ headings x, ∃ k' q, p = k' :: q ∧ k' ∈ x.keys := by
    intro x
    induction x with
    | nil => intro p hp; cases hp
    | leaf k' v' r ih =>
      intro p hp
      obtain ⟨a, q, e, hm⟩ := ih p hp
      exact ⟨a, q, e, List.mem_cons_of_mem _ hm⟩
    | node k' s r _ ih =>
      intro p hp
      rw [headings] at hp
      rcases List.mem_append.mp hp with hp | hp
      · rcases List.mem_cons.mp hp with e | e
        · exact ⟨k', [], e, List.mem_cons_self ..⟩
        · obtain ⟨q, _, e⟩ := List.mem_map.mp e
          exact ⟨k', q, e.symm, List.mem_cons_self ..⟩
      · obtain ⟨a, q, e, hm⟩ := ih p hp
        exact ⟨a, q, e, List.mem_cons_of_mem _ hm⟩
  unfold toFile
  rw [show headings (.leaf k v o) = headings o from rfl, hc]
  intro p hp
  obtain ⟨k', q, e, hm⟩ := hh o p (List.mem_reverse.mp hp)
  exact ⟨k', q, e, fun e' => h (e' ▸ hm)⟩

/-- a schedule to which the round trip applies -/
def sample : Obj :=
  .node "Schedule".toList
    (.leaf "m_uMUID".toList "66=0851408".toList
      (.leaf "m_szCreator".toList [] (.node "Step0".toList (.leaf "m_szLabel".toList "CC1 a[1".toList .nil)
        (.node "Step1".toList (.leaf "m_szLabel".toList "CC2".toList .nil) .nil)))) .nil

theorem not_bracketed (s : Str) (h : '[' ∉ s ∨ ']' ∉ s) : ¬ Bracketed s := by
  rintro ⟨a, b, c, rfl, _⟩
  rcases h with h | h
  · exact h (by simp)
  · exact h (by simp)

example : Fits false sample := by
  have g : ∀ (k : Str) (v : Str), (∀ c ∈ k, c.toNat < 256) → (∀ c ∈ v, c.toNat < 256) → '=' ∉ k →
      (∀ c ∈ k ++ v, c ≠ '\r' ∧ c ≠ '\n') → ']' ∉ k ++ '=' :: v → GoodEntry (k, v) :=
    fun k v a b c d e => ⟨a, b, c, d, not_bracketed _ (Or.inr e)⟩
  refine ⟨by decide, ⟨by decide, by unfold Latin; decide, by decide⟩, ⟨by decide, ?_, ?_, ?_⟩, ⟨rfl, by decide, rfl, by decide, ?_⟩, trivial⟩
  · intro kv hkv
    simp only [plain, List.mem_cons, List.not_mem_nil, or_false] at hkv
    rcases hkv with rfl | rfl
    · exact g _ _ (by decide) (by decide) (by decide) (by decide) (by decide)
    · exact g _ _ (by decide) (by decide) (by decide) (by decide) (by decide)
  · intro kv c h1 h2; cases h1; cases h2; decide
  · intro kv c h1 h2; cases h1; cases h2
  refine ⟨by decide, ⟨by decide, by unfold Latin; decide, by decide⟩, ⟨by decide, ?_, ?_, ?_⟩, ⟨rfl, by decide, trivial⟩, ?_⟩
  · intro kv hkv
    rw [List.mem_singleton.mp hkv]
    exact g _ _ (by decide) (by decide) (by decide) (by decide) (by decide)
  · intro kv c h1 h2; cases h1; cases h2; decide
  · intro kv c h1 h2; cases h1; cases h2; decide
  refine ⟨by decide, ⟨by decide, by unfold Latin; decide, by decide⟩, ⟨by decide, ?_, ?_, ?_⟩, ⟨rfl, by decide, trivial⟩, trivial⟩
  · intro kv hkv
    rw [List.mem_singleton.mp hkv]
    exact g _ _ (by decide) (by decide) (by decide) (by decide) (by decide)
  · intro kv c h1 h2; cases h1; cases h2; decide
  · intro kv c h1 h2; cases h1; cases h2; decide

end Beep.Props.ArbinFile
