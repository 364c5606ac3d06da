import Verif.Proof.Text
import Verif.Props.Dash
import Verif.Model.ArbinFile
import Verif.Spec.ArbinFile
/-
Lemmas for the round trip of Arbin schedule files.
-/
namespace Beep.Arbin
open Beep Beep.Dash Beep.Text Beep.Spec.Dash Beep.Spec.Arbin Beep.Props.Dash

/-- a dictionary of plain entries -/
def leafObj : List (Str × Str) → Obj
  | [] => .nil
  | kv :: l => .leaf kv.1 kv.2 (leafObj l)

/-- the sections in the order of the file -/
def secs (pfx : List Str) : Obj → List (List Str × List (Str × Str))
  | .nil => []
  | .leaf _ _ r => secs pfx r
  | .node k s r => (pfx ++ [k], plain s) :: secs (pfx ++ [k]) s ++ secs pfx r

theorem fits_distinct (b : Bool) (o : Obj) (h : Fits b o) : Distinct o := by
  induction o generalizing b with
  | nil => trivial
  | leaf k v r ih => exact ⟨h.2.1, ih true h.2.2⟩
  | node k s r ihs ihr => exact ⟨h.1, ihs true h.2.2.2.1, ihr false h.2.2.2.2⟩

theorem getP_node_self (k : Str) (s r : Obj) (q : List Str) (hq : q ≠ []) : getP (.node k s r) (k :: q) = getP s q := by
  cases q with
  | nil => exact absurd rfl hq
  | cons x q => simp [getP, Obj.find]

theorem unsetP_node_self (k : Str) (s r : Obj) (q : List Str) (hq : q ≠ []) :
    unsetP (.node k s r) (k :: q) = .node k (unsetP s q) r := by
  cases q with
  | nil => exact absurd rfl hq
  | cons x q => simp [unsetP, Obj.find, Obj.put, Obj.cons]

theorem getP_node_ne (k : Str) (s r : Obj) (x : Str) (q : List Str) (h : k ≠ x) :
    getP (.node k s r) (x :: q) = getP r (x :: q) := by
  cases q with
  | nil => simp [getP, Obj.find, h]
  | cons y q => simp [getP, Obj.find, h]

theorem getP_leaf_ne (k v : Str) (r : Obj) (x : Str) (q : List Str) (h : k ≠ x) :
    getP (.leaf k v r) (x :: q) = getP r (x :: q) := by
  cases q with
  | nil => simp [getP, Obj.find, h]
  | cons y q => simp [getP, Obj.find, h]

theorem unsetP_node_ne (k : Str) (s r : Obj) (x : Str) (q : List Str) (h : k ≠ x) :
    unsetP (.node k s r) (x :: q) = .node k s (unsetP r (x :: q)) := by
  cases q with
  | nil => simp [unsetP, Obj.del, h]
  | cons y q =>
    simp only [unsetP, Obj.find, if_neg h]
    split
    · simp [Obj.put, h]
    · rfl

theorem unsetP_leaf_ne (k v : Str) (r : Obj) (x : Str) (q : List Str) (h : k ≠ x) :
    unsetP (.leaf k v r) (x :: q) = .leaf k v (unsetP r (x :: q)) := by
  cases q with
  | nil => simp [unsetP, Obj.del, h]
  | cons y q =>
    simp only [unsetP, Obj.find, if_neg h]
    split
    · simp [Obj.put, h]
    · rfl

/-- reading and removing the sections from the last to the first -/
theorem collect_spec (o : Obj) (hd : Distinct o) (pfx : List Str) (C : Obj → Obj)
    (hg : ∀ x k q, k ∈ o.keys → getP (C x) (pfx ++ k :: q) = getP x (k :: q))
    (hu : ∀ x k q, k ∈ o.keys → unsetP (C x) (pfx ++ k :: q) = C (unsetP x (k :: q)))
    (hs : List (List Str)) (acc : List (List Str × Option Val)) :
    collect (C o) (((headings o).map (fun h => pfx ++ h)).reverse ++ hs) acc =
      collect (C (leafObj (plain o))) hs
        ((secs pfx o).map (fun s => (s.1, some (Val.obj (leafObj s.2)))) ++ acc) := by
  induction o generalizing pfx C hs acc with
  | nil => rfl
  | leaf k v r ih =>
    have := ih hd.2 pfx (fun x => C (.leaf k v x))
      (fun x k' q hk => by
        rw [hg _ _ _ (List.mem_cons_of_mem _ hk), getP_leaf_ne]
        rintro rfl; exact hd.1 hk)
      (fun x k' q hk => by
        rw [hu _ _ _ (List.mem_cons_of_mem _ hk), unsetP_leaf_ne]
        rintro rfl; exact hd.1 hk) hs acc
    exact this
  | node k s r ihs ihr =>
    obtain ⟨h1, h2, h3⟩ := hd
    have e : ((headings (.node k s r)).map (fun h => pfx ++ h)).reverse ++ hs =
        ((headings r).map (fun h => pfx ++ h)).reverse ++
          (((headings s).map (fun h => (pfx ++ [k]) ++ h)).reverse ++ ((pfx ++ [k]) :: hs)) := by
      simp only [headings, List.cons_append, List.map_cons, List.map_append, List.map_map, List.reverse_cons,
        List.reverse_append, List.append_assoc]
      congr 3
    rw [e]
    rw [ihr h3 pfx (fun x => C (.node k s x))
      (fun x k' q hk => by
        rw [hg _ _ _ (List.mem_cons_of_mem _ hk), getP_node_ne]
        rintro rfl; exact h1 hk)
      (fun x k' q hk => by
        rw [hu _ _ _ (List.mem_cons_of_mem _ hk), unsetP_node_ne]
        rintro rfl; exact h1 hk)]
    rw [ihs h2 (pfx ++ [k]) (fun y => C (.node k y (leafObj (plain r))))
      (fun y k' q hk => by
        rw [List.append_assoc, List.singleton_append, hg _ _ _ (List.mem_cons_self ..), getP_node_self _ _ _ _ (by simp)])
      (fun y k' q hk => by
        rw [List.append_assoc, List.singleton_append, hu _ _ _ (List.mem_cons_self ..),
          unsetP_node_self _ _ _ _ (by simp)])]
    rw [collect, hg _ _ _ (List.mem_cons_self ..), hu _ _ _ (List.mem_cons_self ..)]
    simp [getP, unsetP, Obj.find, Obj.del, secs, plain]

theorem items_leafObj (l : List (Str × Str)) : items (leafObj l) = .ok l := by
  induction l with
  | nil => rfl
  | cons kv l ih => rw [leafObj, items, ih]; rfl

theorem mapE_ok {α β : Type} (f : α → Except Err β) (g : α → β) (l : List α) (h : ∀ a ∈ l, f a = .ok (g a)) :
    mapE f l = .ok (l.map g) := by
  induction l with
  | nil => rfl
  | cons a l ih =>
    rw [mapE, h a (List.mem_cons_self ..), ih (fun x hx => h x (List.mem_cons_of_mem _ hx))]
    rfl

/-- the text of a section -/
def secText (s : List Str × List (Str × Str)) : Str :=
  '[' :: join ['_'] s.1 ++ ']' :: eol ++ join eol (s.2.map entry)

/-- the text before encoding -/
theorem toFile_text (o : Obj) (hd : Distinct o) :
    toFile o = latin1 (join eol ((secs [] o).map secText) ++ eol) := by
  unfold toFile
  have := collect_spec o hd [] id (fun x k q _ => rfl) (fun x k q _ => rfl) [] []
  simp only [List.nil_append, List.map_id', List.append_nil, id] at this
  rw [this, collect]
  have hm : mapE block ((secs [] o).map (fun s => (s.1, some (Val.obj (leafObj s.2))))) =
      .ok ((secs [] o).map secText) := by
    rw [mapE_ok block (fun s => match s.2 with | some (.obj p) => secText (s.1, plain p) | _ => [])]
    · rw [List.map_map]
      congr 1
      apply List.map_congr_left
      intro a _
      have hp : ∀ l, plain (leafObj l) = l := by
        intro l; induction l with
        | nil => rfl
        | cons kv l ih => rw [leafObj, plain, ih]
      simp [hp]
    · intro a ha
      obtain ⟨s, _, rfl⟩ := List.mem_map.mp ha
      have hp : ∀ l, plain (leafObj l) = l := by
        intro l; induction l with
        | nil => rfl
        | cons kv l ih => rw [leafObj, plain, ih]
      unfold block
      simp only [items_leafObj, hp]
      rfl
  rw [hm]
  rfl

/-! ### reading -/

/-- one dictionary after another -/
def app : Obj → Obj → Obj
  | .nil, y => y
  | .leaf k v r, y => .leaf k v (app r y)
  | .node k s r, y => .node k s (app r y)

/-- the sections of a dictionary -/
def nodes : Obj → Obj
  | .nil => .nil
  | .leaf _ _ r => nodes r
  | .node k s r => .node k s (nodes r)

theorem put_new (x : Obj) (k : Str) (o : Obj) (h : k ∉ x.keys) : x.put k (.obj o) = app x (.node k o .nil) := by
  induction x with
  | nil => rfl
  | leaf k' v r ih =>
    simp only [Obj.keys, List.mem_cons, not_or] at h
    rw [Obj.put, if_neg (fun e => h.1 e.symm), ih h.2]; rfl
  | node k' s r _ ih =>
    simp only [Obj.keys, List.mem_cons, not_or] at h
    rw [Obj.put, if_neg (fun e => h.1 e.symm), ih h.2]; rfl

theorem find_app_new (x : Obj) (k : Str) (o : Obj) (h : k ∉ x.keys) :
    (app x (.node k o .nil)).find k = some (.obj o) := by
  rw [← put_new x k o h, find_put, if_pos rfl]

theorem put_app_new (x : Obj) (k : Str) (o o' : Obj) (h : k ∉ x.keys) :
    (app x (.node k o .nil)).put k (.obj o') = app x (.node k o' .nil) := by
  induction x with
  | nil => simp [app, Obj.put, Obj.cons]
  | leaf k' v r ih =>
    simp only [Obj.keys, List.mem_cons, not_or] at h
    rw [app, Obj.put, if_neg (fun e => h.1 e.symm), ih h.2]; rfl
  | node k' s r _ ih =>
    simp only [Obj.keys, List.mem_cons, not_or] at h
    rw [app, Obj.put, if_neg (fun e => h.1 e.symm), ih h.2]; rfl

theorem keys_app (x y : Obj) : (app x y).keys = x.keys ++ y.keys := by
  induction x with
  | nil => rfl
  | leaf k v r ih => simp [app, Obj.keys, ih]
  | node k s r _ ih => simp [app, Obj.keys, ih]

theorem app_assoc (x y z : Obj) : app (app x y) z = app x (app y z) := by
  induction x with
  | nil => rfl
  | leaf k v r ih => simp [app, ih]
  | node k s r _ ih => simp [app, ih]

theorem keys_leafObj (l : List (Str × Str)) : (leafObj l).keys = l.map Prod.fst := by
  induction l with
  | nil => rfl
  | cons kv l ih => rw [leafObj, Obj.keys, ih]; rfl

theorem plain_keys (o : Obj) : ∀ kv ∈ plain o, kv.1 ∈ o.keys := by
  induction o with
  | nil => simp [plain]
  | leaf k v r ih =>
    intro kv hkv
    rcases List.mem_cons.mp hkv with e | e
    · subst e; exact List.mem_cons_self ..
    · exact List.mem_cons_of_mem _ (ih kv e)
  | node k s r _ ih => intro kv hkv; exact List.mem_cons_of_mem _ (ih kv hkv)

theorem nodes_keys (o : Obj) : ∀ k ∈ (nodes o).keys, k ∈ o.keys := by
  induction o with
  | nil => simp [nodes]
  | leaf k v r ih => intro x hx; exact List.mem_cons_of_mem _ (ih x hx)
  | node k s r _ ih =>
    intro x hx
    rcases List.mem_cons.mp hx with e | e
    · subst e; exact List.mem_cons_self ..
    · exact List.mem_cons_of_mem _ (ih x e)

theorem fits_split (b : Bool) (o : Obj) (h : Fits b o) : app (leafObj (plain o)) (nodes o) = o := by
  have hf : ∀ o, Fits false o → plain o = [] ∧ nodes o = o := by
    intro o
    induction o with
    | nil => intro _; exact ⟨rfl, rfl⟩
    | leaf k v r ih => intro h; exact absurd h.1 (by decide)
    | node k s r _ ih =>
      intro h
      obtain ⟨h1, h2⟩ := ih h.2.2.2.2
      exact ⟨h1, by rw [nodes, h2]⟩
  induction o generalizing b with
  | nil => rfl
  | leaf k v r ih => rw [plain, leafObj, app, nodes, ih true h.2.2]
  | node k s r _ ih =>
    obtain ⟨h1, h2⟩ := hf (.node k s r) (by exact ⟨h.1, h.2.1, h.2.2.1, h.2.2.2.1, h.2.2.2.2⟩)
    rw [h1, h2]; rfl

theorem fits_disjoint (b : Bool) (o : Obj) (h : Fits b o) : ∀ k ∈ (nodes o).keys, k ∉ (plain o).map Prod.fst := by
  induction o generalizing b with
  | nil => simp [nodes, Obj.keys]
  | leaf k v r ih =>
    intro x hx hm
    rw [plain, List.map_cons, List.mem_cons] at hm
    rcases hm with e | e
    · subst e; exact h.2.1 (nodes_keys r _ hx)
    · exact ih true h.2.2 x hx e
  | node k s r _ ih =>
    intro x hx hm
    rw [plain] at hm
    rcases List.mem_cons.mp hx with e | e
    · subst e
      obtain ⟨kv, hkv, he⟩ := List.mem_map.mp hm
      exact h.1 (he ▸ plain_keys r kv hkv)
    · exact ih false h.2.2.2.2 x e hm

/-- writing sections one after another -/
def fill : Obj → List (List Str × List (Str × Str)) → Except Err Obj
  | o, [] => .ok o
  | o, s :: ss => do fill (← setP o s.1 (.obj (leafObj s.2))) ss

theorem fill_append (o : Obj) (a b : List (List Str × List (Str × Str))) (o' : Obj) (h : fill o a = .ok o') :
    fill o (a ++ b) = fill o' b := by
  induction a generalizing o with
  | nil => cases h; rfl
  | cons s a ih =>
    rw [fill] at h
    rw [List.cons_append, fill]
    simp only [bind, Except.bind] at h ⊢
    split at h
    · cases h
    · exact ih _ h

theorem fill_spec (o : Obj) (b : Bool) (hf : Fits b o) (pfx : List Str) (C : Obj → Obj) (x : Obj)
    (hs : ∀ y q w, q ≠ [] → setP (C y) (pfx ++ q) w = (setP y q w).map C)
    (hx : ∀ k ∈ (nodes o).keys, k ∉ x.keys) :
    fill (C x) (secs pfx o) = .ok (C (app x (nodes o))) := by
  induction o generalizing b pfx C x with
  | nil =>
    have : app x .nil = x := by
      clear hx
      induction x with
      | nil => rfl
      | leaf k v r ih => rw [app, ih]
      | node k s r _ ih => rw [app, ih]
    rw [nodes, this]; rfl
  | leaf k v r ih => exact ih true hf.2.2 pfx C x hs hx
  | node k s r ihs ihr =>
    obtain ⟨h1, h2, h3, h4, h5⟩ := hf
    have hk : k ∉ x.keys := hx k (List.mem_cons_self ..)
    rw [secs, List.cons_append, fill, hs x [k] _ (by simp)]
    simp only [setP, Except.map, bind, Except.bind]
    rw [put_new x k _ hk]
    have hsub := ihs true h4 (pfx ++ [k]) (fun y => C (app x (.node k y .nil))) (leafObj (plain s))
      (fun y q w hq => by
        rw [List.append_assoc, List.singleton_append, hs _ _ _ (by simp)]
        cases q with
        | nil => exact absurd rfl hq
        | cons q0 q =>
          rw [setP, find_app_new x k y hk]
          simp only [bind, Except.bind]
          cases setP y (q0 :: q) w with
          | error e => rfl
          | ok o' =>
            show Except.ok _ = Except.ok _
            rw [put_app_new x k y o' hk])
      (by rw [keys_leafObj]; exact fits_disjoint true s h4)
    rw [fill_append _ _ _ _ hsub, fits_split true s h4]
    rw [ihr false h5 pfx C (app x (.node k s .nil)) hs]
    · rw [app_assoc, nodes]; rfl
    · intro k' hk' hm
      rw [keys_app, List.mem_append] at hm
      rcases hm with hm | hm
      · exact hx k' (List.mem_cons_of_mem _ hk') hm
      · simp only [Obj.keys, List.mem_singleton] at hm
        subst hm
        exact h1 (nodes_keys r _ hk')

/-! ### the text -/

theorem upToClose_none (s : Str) (h : ¬ ∃ b c, s = b ++ ']' :: c ∧ b ≠ []) : upToClose s = none := by
  induction s with
  | nil => rfl
  | cons x s ih =>
    rw [upToClose]
    rw [ih]
    · simp only
      rw [if_neg]
      intro hh
      cases s with
      | nil => cases hh
      | cons y s =>
        simp only [List.head?_cons, Option.some.injEq] at hh
        subst hh
        exact h ⟨[x], s, rfl, by simp⟩
    · rintro ⟨b, c, rfl, hb⟩
      exact h ⟨x :: b, c, rfl, by simp⟩

theorem upToClose_eq (h s : Str) (hh : h ≠ []) (hs : ']' ∉ s) : upToClose (h ++ ']' :: s) = some h := by
  have h0 : upToClose s = none := by
    apply upToClose_none
    rintro ⟨b, c, rfl, _⟩
    exact hs (by simp)
  have h1 : upToClose (']' :: s) = none := by
    rw [upToClose, h0]
    simp only
    rw [if_neg]
    intro e
    cases s with
    | nil => cases e
    | cons y s =>
      simp only [List.head?_cons, Option.some.injEq] at e
      subst e; exact hs (List.mem_cons_self ..)
  induction h with
  | nil => exact absurd rfl hh
  | cons x h ih =>
    cases h with
    | nil => rw [List.cons_append, List.nil_append, upToClose, h1]; simp
    | cons y h => rw [List.cons_append, upToClose, ih (by simp)]

theorem search_line (l t : Str) (hn : '\n' ∉ l) (hb : ¬ Bracketed l) :
    search (l ++ '\n' :: t) = (search t).map (fun r => (l ++ '\n' :: r.1, r.2.1, r.2.2)) := by
  induction l with
  | nil =>
    rw [List.nil_append, search, if_neg (by decide)]
    rfl
  | cons c l ih =>
    rw [List.mem_cons, not_or] at hn
    have hb' : ¬ Bracketed l := by
      rintro ⟨a, b, c', e, hne⟩
      exact hb ⟨c :: a, b, c', by rw [e]; simp, hne⟩
    rw [List.cons_append, search]
    have : (if c = '[' then upToClose ((l ++ '\n' :: t).takeWhile (fun x => x ≠ '\n')) else none) = none := by
      split
      · rename_i hc
        have ht : (l ++ '\n' :: t).takeWhile (fun x => x ≠ '\n') = l := by
          rw [List.takeWhile_append_of_pos, List.takeWhile_cons, if_neg (by decide), List.append_nil]
          intro a ha
          simp only [ne_eq, decide_not, Bool.not_eq_eq_eq_not, Bool.not_true, decide_eq_false_iff_not]
          rintro rfl; exact hn.2 ha
        rw [ht]
        apply upToClose_none
        rintro ⟨b, d, e, hne⟩
        exact hb ⟨[], b, d, by rw [hc, e]; simp, hne⟩
      · rfl
    rw [this]
    simp only
    rw [ih hn.2 hb', Option.map_map]
    rfl

theorem search_head (h t : Str) (hh : h ≠ []) (hn : '\n' ∉ h) :
    search ('[' :: h ++ ']' :: '\r' :: '\n' :: t) = some ([], h, '\r' :: '\n' :: t) := by
  rw [List.cons_append, search, if_pos rfl]
  have ht : (h ++ ']' :: '\r' :: '\n' :: t).takeWhile (fun x => x ≠ '\n') = h ++ [']', '\r'] := by
    rw [show h ++ ']' :: '\r' :: '\n' :: t = (h ++ [']', '\r']) ++ '\n' :: t by simp]
    rw [List.takeWhile_append_of_pos, List.takeWhile_cons, if_neg (by decide), List.append_nil]
    intro a ha
    simp only [ne_eq, decide_not, Bool.not_eq_eq_eq_not, Bool.not_true, decide_eq_false_iff_not]
    rintro rfl
    rcases List.mem_append.mp ha with e | e
    · exact hn e
    · revert e; decide
  rw [ht, upToClose_eq h ['\r'] hh (by decide)]
  simp only
  congr 2
  rw [List.drop_append, List.drop_eq_nil_of_le (by omega)]
  rw [show h.length + 1 - h.length = 1 by omega]
  rfl

/-- the lines of a body, each ended -/
def bodyText : List (Str × Str) → Str
  | [] => []
  | kv :: l => entry kv ++ '\r' :: '\n' :: bodyText l

theorem bodyText_eq (l : List (Str × Str)) (hl : l ≠ []) : bodyText l = join eol (l.map entry) ++ eol := by
  induction l with
  | nil => exact absurd rfl hl
  | cons kv l ih =>
    cases l with
    | nil => rfl
    | cons kv' l =>
      rw [bodyText, ih (by simp)]
      simp [join, eol]

theorem entry_facts (kv : Str × Str) (h : GoodEntry kv) :
    '\n' ∉ entry kv ∧ '\r' ∉ entry kv ∧ ¬ Bracketed (entry kv ++ ['\r']) := by
  obtain ⟨h1, h2, h3, h4, h5⟩ := h
  refine ⟨?_, ?_, ?_⟩
  · intro hm
    rcases List.mem_append.mp hm with e | e
    · exact (h4 _ (List.mem_append_left _ e)).2 rfl
    · rcases List.mem_cons.mp e with e | e
      · revert e; decide
      · exact (h4 _ (List.mem_append_right _ e)).2 rfl
  · intro hm
    rcases List.mem_append.mp hm with e | e
    · exact (h4 _ (List.mem_append_left _ e)).1 rfl
    · rcases List.mem_cons.mp e with e | e
      · revert e; decide
      · exact (h4 _ (List.mem_append_right _ e)).1 rfl
  · rintro ⟨a, b, c, e, hne⟩
    apply h5
    rcases List.eq_nil_or_concat c with hc | ⟨c', x, hc⟩
    · subst hc
      have := congrArg List.getLast? e
      rw [List.getLast?_append_of_ne_nil _ (by simp), List.getLast?_append_of_ne_nil _ (by simp)] at this
      exact absurd this (by decide)
    · subst hc
      refine ⟨a, b, c', ?_, hne⟩
      have : (entry kv ++ ['\r']).dropLast = (a ++ '[' :: b ++ ']' :: (c' ++ [x])).dropLast := by rw [e, List.concat_eq_append]
      rw [List.dropLast_concat] at this
      rw [show kv.1 ++ '=' :: kv.2 = entry kv from rfl, this]
      rw [show a ++ '[' :: b ++ ']' :: (c' ++ [x]) = (a ++ '[' :: b ++ ']' :: c') ++ [x] by simp, List.dropLast_concat]

theorem search_body (l : List (Str × Str)) (h : ∀ kv ∈ l, GoodEntry kv) (t : Str) :
    search (bodyText l ++ t) = (search t).map (fun r => (bodyText l ++ r.1, r.2.1, r.2.2)) := by
  induction l with
  | nil => simp [bodyText]
  | cons kv l ih =>
    obtain ⟨h1, h2, h3⟩ := entry_facts kv (h kv (List.mem_cons_self ..))
    have := search_line (entry kv ++ ['\r']) (bodyText l ++ t)
      (by intro hm; rcases List.mem_append.mp hm with e | e
          · exact h1 e
          · revert e; decide) h3
    rw [bodyText, show (entry kv ++ '\r' :: '\n' :: bodyText l) ++ t = (entry kv ++ ['\r']) ++ '\n' :: (bodyText l ++ t) by simp,
      this, ih (fun x hx => h x (List.mem_cons_of_mem _ hx)), Option.map_map]
    congr 1
    funext r
    simp

/-- the whole text as sections, each with its lines ended -/
def fileText : List (List Str × List (Str × Str)) → Str
  | [] => []
  | s :: ss => ('[' :: join ['_'] s.1 ++ ']' :: '\r' :: '\n' :: bodyText s.2) ++ fileText ss

theorem fileText_eq (ss : List (List Str × List (Str × Str))) (hs : ss ≠ []) (hb : ∀ s ∈ ss, s.2 ≠ []) :
    join eol (ss.map secText) ++ eol = fileText ss := by
  induction ss with
  | nil => exact absurd rfl hs
  | cons s ss ih =>
    have h0 : secText s ++ eol = '[' :: join ['_'] s.1 ++ ']' :: '\r' :: '\n' :: bodyText s.2 := by
      rw [bodyText_eq s.2 (hb s (List.mem_cons_self ..)), secText]
      simp [eol]
    cases ss with
    | nil => rw [fileText, fileText, List.append_nil, ← h0]; rfl
    | cons s' ss =>
      rw [fileText, ← ih (by simp) (fun x hx => hb x (List.mem_cons_of_mem _ hx)), ← h0]
      simp [join]

/-- conditions on a list of sections -/
def GoodSecs (ss : List (List Str × List (Str × Str))) : Prop :=
  ∀ s ∈ ss, s.1 ≠ [] ∧ (∀ k ∈ s.1, GoodName k) ∧ GoodBody s.2

theorem name_facts (p : List Str) (hp : p ≠ []) (h : ∀ k ∈ p, GoodName k) :
    join ['_'] p ≠ [] ∧ '\n' ∉ join ['_'] p := by
  refine ⟨join_ne_nil _ _ hp (fun k hk => (h k hk).1), ?_⟩
  intro hm
  rcases mem_join _ _ _ hm with e | ⟨k, hk, e⟩
  · revert e; decide
  · exact (h k hk).2.2 _ e (by decide)

theorem sections_text (p : List Str) (l : List (Str × Str)) (ss : List (List Str × List (Str × Str)))
    (hl : ∀ kv ∈ l, GoodEntry kv) (hs : GoodSecs ss) :
    sections (join ['_'] p) ('\r' :: '\n' :: bodyText l ++ fileText ss) =
      (join ['_'] p, '\r' :: '\n' :: bodyText l) ::
        ss.map (fun s => (join ['_'] s.1, '\r' :: '\n' :: bodyText s.2)) := by
  have key : ∀ t, search ('\r' :: '\n' :: bodyText l ++ t) =
      (search t).map (fun r => ('\r' :: '\n' :: bodyText l ++ r.1, r.2.1, r.2.2)) := by
    intro t
    have := search_line ['\r'] (bodyText l ++ t) (by decide)
      (by rintro ⟨a, b, c, e, _⟩
          have := congrArg (fun s => '[' ∈ s) e
          simp at this)
    rw [show ('\r' :: '\n' :: bodyText l) ++ t = ['\r'] ++ '\n' :: (bodyText l ++ t) by simp, this,
      search_body l hl, Option.map_map]
    congr 1
  induction ss generalizing p l with
  | nil =>
    rw [fileText, sections]
    have := key []
    rw [show search [] = none from rfl] at this
    split
    · rw [List.append_nil]; rfl
    · rename_i h; rw [this] at h; cases h
  | cons s ss ih =>
    obtain ⟨h1, h2, h3⟩ := hs s (List.mem_cons_self ..)
    obtain ⟨n1, n2⟩ := name_facts s.1 h1 h2
    have hh := search_head (join ['_'] s.1) (bodyText s.2 ++ fileText ss) n1 n2
    have ht : fileText (s :: ss) = '[' :: join ['_'] s.1 ++ ']' :: '\r' :: '\n' :: (bodyText s.2 ++ fileText ss) := by
      rw [fileText]; simp
    have hk := key (fileText (s :: ss))
    rw [ht, hh] at hk
    rw [sections, ht]
    split
    · rename_i h; rw [hk] at h; cases h
    · rename_i a h' r h
      rw [hk] at h
      cases h
      rw [List.append_nil, List.map_cons]
      congr 1
      have key' : ∀ t, search ('\r' :: '\n' :: bodyText s.2 ++ t) =
          (search t).map (fun r => ('\r' :: '\n' :: bodyText s.2 ++ r.1, r.2.1, r.2.2)) := by
        intro t
        have := search_line ['\r'] (bodyText s.2 ++ t) (by decide)
          (by rintro ⟨a, b, c, e, _⟩
              have := congrArg (fun s => '[' ∈ s) e
              simp at this)
        rw [show ('\r' :: '\n' :: bodyText s.2) ++ t = ['\r'] ++ '\n' :: (bodyText s.2 ++ t) by simp, this,
          search_body s.2 h3.2.1, Option.map_map]
        congr 1
      exact ih s.1 s.2 h3.2.1 (fun x hx => hs x (List.mem_cons_of_mem _ hx)) key'

theorem splitLines_plain (a : Str) (h : '\n' ∉ a ∧ '\r' ∉ a) : splitLines a = [a] := by
  induction a with
  | nil => rfl
  | cons c a ih =>
    rw [List.mem_cons, not_or, List.mem_cons, not_or] at h
    unfold splitLines
    rw [if_neg (by rintro (e | e); exacts [h.2.1 e.symm, h.1.1 e.symm]), ih ⟨h.1.2, h.2.2⟩]

theorem splitLines_cons (a t : Str) (h : '\n' ∉ a ∧ '\r' ∉ a) (ht : ∀ c, t.head? = some c → c ≠ '\r' ∧ c ≠ '\n')
    (hne : t ≠ []) : splitLines (a ++ '\r' :: '\n' :: t) = a :: splitLines t := by
  induction a with
  | nil =>
    cases t with
    | nil => exact absurd rfl hne
    | cons x t =>
      obtain ⟨h1, h2⟩ := ht x rfl
      have e1 : splitLines ('\r' :: '\n' :: x :: t) = splitLines ('\n' :: x :: t) := by
        rw [splitLines.eq_def]
        simp
      have e2 : splitLines ('\n' :: x :: t) = [] :: splitLines (x :: t) := by
        rw [splitLines.eq_def]
        simp [h1, h2]
      rw [List.nil_append, e1, e2]
  | cons c a ih =>
    rw [List.mem_cons, not_or, List.mem_cons, not_or] at h
    rw [List.cons_append, splitLines.eq_def]
    simp only
    rw [if_neg (by rintro (e | e); exacts [h.2.1 e.symm, h.1.1 e.symm]), ih ⟨h.1.2, h.2.2⟩]

theorem splitLines_join (l : List Str) (hl : l ≠ []) (h : ∀ s ∈ l, s ≠ [] ∧ '\n' ∉ s ∧ '\r' ∉ s) :
    splitLines (join eol l) = l := by
  induction l with
  | nil => exact absurd rfl hl
  | cons a l ih =>
    cases l with
    | nil => exact splitLines_plain a (h a (List.mem_cons_self ..)).2
    | cons b l =>
      rw [join, show a ++ eol ++ join eol (b :: l) = a ++ '\r' :: '\n' :: join eol (b :: l) by simp [eol]]
      obtain ⟨b1, b2, b3⟩ := h b (by simp)
      have hhead : (join eol (b :: l)).head? = b.head? := by
        cases l with
        | nil => rfl
        | cons c l => rw [join, List.append_assoc, List.head?_append_of_ne_nil _ b1]
      rw [splitLines_cons a _ (h a (List.mem_cons_self ..)).2, ih (by simp) (fun s hs => h s (List.mem_cons_of_mem _ hs))]
      · intro c hc
        rw [hhead] at hc
        have := List.mem_of_mem_head? hc
        exact ⟨fun e => b3 (e ▸ this), fun e => b2 (e ▸ this)⟩
      · exact join_ne_nil _ _ (by simp) (fun s hs => (h s (List.mem_cons_of_mem _ hs)).1)

theorem getLast?_join (l : List Str) (a : Str) (h : l.getLast? = some a) (ha : a ≠ []) :
    (join eol l).getLast? = a.getLast? := by
  induction l with
  | nil => cases h
  | cons b l ih =>
    cases l with
    | nil => simp only [List.getLast?_singleton, Option.some.injEq] at h; subst h; rfl
    | cons c l =>
      rw [List.getLast?_cons_cons] at h
      have hj := ih h
      rw [join]
      have hne : join eol (c :: l) ≠ [] := by
        intro e
        rw [e] at hj
        simp only [List.getLast?_nil] at hj
        rw [eq_comm, List.getLast?_eq_none_iff] at hj
        exact ha hj
      rw [List.getLast?_append_of_ne_nil _ hne, hj]

theorem strip_body (l : List (Str × Str)) (h : GoodBody l) :
    strip ('\r' :: '\n' :: bodyText l) = join eol (l.map entry) := by
  obtain ⟨h1, h2, h3, h4⟩ := h
  rw [bodyText_eq l h1, show '\r' :: '\n' :: (join eol (l.map entry) ++ eol) = eol ++ join eol (l.map entry) ++ eol by
    simp [eol]]
  apply strip_mid
  · decide
  · decide
  · intro c hc
    cases l with
    | nil => exact absurd rfl h1
    | cons kv l =>
      have he : (join eol ((kv :: l).map entry)).head? = (entry kv).head? := by
        cases l with
        | nil => rfl
        | cons kv' l => rw [List.map_cons, List.map_cons, join, List.append_assoc, List.head?_append_of_ne_nil _ (by simp [entry])]
      rw [he] at hc
      cases hk : kv.1 with
      | nil => rw [entry, hk] at hc; simp only [List.nil_append, List.head?_cons, Option.some.injEq] at hc; subst hc; rfl
      | cons x k =>
        rw [entry, hk] at hc
        simp only [List.cons_append, List.head?_cons, Option.some.injEq] at hc
        subst hc
        exact h3 kv x rfl (by rw [hk]; rfl)
  · intro c hc
    obtain ⟨kv, hkv⟩ : ∃ kv, l.getLast? = some kv := by
      cases hl : l.getLast? with
      | none => exact absurd (List.getLast?_eq_none_iff.mp hl) h1
      | some kv => exact ⟨kv, rfl⟩
    rw [getLast?_join (l.map entry) (entry kv) (by rw [List.getLast?_map, hkv]; rfl) (by simp [entry])] at hc
    cases hv : kv.2 with
    | nil =>
      rw [entry, hv, List.getLast?_append_of_ne_nil _ (by simp)] at hc
      simp only [List.getLast?_singleton, Option.some.injEq] at hc
      subst hc; rfl
    | cons x v =>
      rw [entry, hv, List.getLast?_append_of_ne_nil _ (by simp), List.getLast?_cons_cons, ← hv] at hc
      exact h4 kv c hkv hc

theorem pairOf_entry (kv : Str × Str) (h : '=' ∉ kv.1) : pairOf (entry kv) = .ok kv := by
  unfold pairOf entry
  rw [split1_append '=' kv.1 kv.2 h]

theorem ofPairs_eq (l : List (Str × Str)) (h : (l.map Prod.fst).Nodup) : ofPairs l = leafObj l := by
  have key : ∀ (l : List (Str × Str)) (o : Obj), (l.map Prod.fst).Nodup → (∀ kv ∈ l, kv.1 ∉ o.keys) →
      l.foldl (fun o kv => o.put kv.1 (.str kv.2)) o = app o (leafObj l) := by
    intro l
    induction l with
    | nil =>
      intro o _ _
      show o = app o .nil
      induction o with
      | nil => rfl
      | leaf k v r ih => rw [app, ← ih (by simp)]
      | node k s r _ ih => rw [app, ← ih (by simp)]
    | cons kv l ih =>
      intro o hn ho
      rw [List.map_cons, List.nodup_cons] at hn
      have hput : o.put kv.1 (.str kv.2) = app o (.leaf kv.1 kv.2 .nil) := by
        have := ho kv (List.mem_cons_self ..)
        clear ih ho
        induction o with
        | nil => rfl
        | leaf k' v r ih =>
          simp only [Obj.keys, List.mem_cons, not_or] at this
          rw [Obj.put, if_neg (fun e => this.1 e.symm), ih this.2]; rfl
        | node k' s r _ ih =>
          simp only [Obj.keys, List.mem_cons, not_or] at this
          rw [Obj.put, if_neg (fun e => this.1 e.symm), ih this.2]; rfl
      rw [List.foldl_cons, hput, ih _ hn.2, app_assoc]
      · rfl
      · intro kv' hkv' hm
        rw [keys_app, List.mem_append] at hm
        rcases hm with hm | hm
        · exact ho kv' (List.mem_cons_of_mem _ hkv') hm
        · simp only [Obj.keys, List.mem_singleton] at hm
          exact hn.1 (hm ▸ List.mem_map.mpr ⟨kv', hkv', rfl⟩)
  exact key l .nil h (by intro kv _; simp [Obj.keys])

theorem addSection_eq (o : Obj) (s : List Str × List (Str × Str)) (h1 : s.1 ≠ []) (h2 : ∀ k ∈ s.1, GoodName k)
    (h3 : GoodBody s.2) (h4 : (s.2.map Prod.fst).Nodup) :
    addSection o (join ['_'] s.1, '\r' :: '\n' :: bodyText s.2) = setP o s.1 (.obj (leafObj s.2)) := by
  unfold addSection
  simp only
  rw [strip_body s.2 h3, splitLines_join]
  · rw [show mapE pairOf (s.2.map entry) = .ok s.2 by
      have := mapE_ok (fun kv => pairOf (entry kv)) id s.2 (fun kv hkv => pairOf_entry kv (h3.2.1 kv hkv).2.2.1)
      rw [List.map_id] at this
      have hm : ∀ l : List (Str × Str), mapE pairOf (l.map entry) = mapE (fun kv => pairOf (entry kv)) l := by
        intro l; induction l with
        | nil => rfl
        | cons a l ih => rw [List.map_cons, mapE, mapE, ih]
      rw [hm, this]]
    simp only [bind, Except.bind]
    rw [replace_join '_' '.' s.1 (fun k hk hm => (h2 k hk).2.2 _ hm (by decide)),
      splitC_join '.' s.1 h1 (fun k hk hm => (h2 k hk).2.2 _ hm (by decide)), ofPairs_eq s.2 h4]
  · simp [h3.1]
  · intro x hx
    obtain ⟨kv, hkv, rfl⟩ := List.mem_map.mp hx
    obtain ⟨a, b, c⟩ := entry_facts kv (h3.2.1 kv hkv)
    exact ⟨by simp [entry], a, b⟩

theorem addAll_eq (o : Obj) (ss : List (List Str × List (Str × Str))) (h : GoodSecs ss)
    (hn : ∀ s ∈ ss, (s.2.map Prod.fst).Nodup) :
    addAll o (ss.map (fun s => (join ['_'] s.1, '\r' :: '\n' :: bodyText s.2))) = fill o ss := by
  induction ss generalizing o with
  | nil => rfl
  | cons s ss ih =>
    obtain ⟨h1, h2, h3⟩ := h s (List.mem_cons_self ..)
    rw [List.map_cons, addAll, fill, addSection_eq o s h1 h2 h3 (hn s (List.mem_cons_self ..))]
    simp only [bind, Except.bind]
    cases setP o s.1 (.obj (leafObj s.2)) with
    | error e => rfl
    | ok o' => exact ih o' (fun x hx => h x (List.mem_cons_of_mem _ hx)) (fun x hx => hn x (List.mem_cons_of_mem _ hx))

theorem plain_nodup (o : Obj) (h : Distinct o) : ((plain o).map Prod.fst).Nodup := by
  induction o with
  | nil => exact List.nodup_nil
  | leaf k v r ih =>
    rw [plain, List.map_cons, List.nodup_cons]
    refine ⟨?_, ih h.2⟩
    intro hm
    obtain ⟨kv, hkv, e⟩ := List.mem_map.mp hm
    have := plain_keys r kv hkv
    rw [e] at this
    exact h.1 this
  | node k s r _ ih => exact ih h.2.2

theorem secs_good (o : Obj) (b : Bool) (h : Fits b o) (pfx : List Str) (hp : ∀ k ∈ pfx, GoodName k) :
    GoodSecs (secs pfx o) ∧ ∀ s ∈ secs pfx o, (s.2.map Prod.fst).Nodup := by
  induction o generalizing b pfx with
  | nil => exact ⟨(fun s hs => nomatch hs), (fun s hs => nomatch hs)⟩
  | leaf k v r ih => exact ih true h.2.2 pfx hp
  | node k s r ihs ihr =>
    obtain ⟨h1, h2, h3, h4, h5⟩ := h
    have hp' : ∀ k' ∈ pfx ++ [k], GoodName k' := by
      intro k' hk'
      rcases List.mem_append.mp hk' with e | e
      · exact hp k' e
      · rw [List.mem_singleton.mp e]; exact h2
    obtain ⟨a1, a2⟩ := ihs true h4 (pfx ++ [k]) hp'
    obtain ⟨b1, b2⟩ := ihr false h5 pfx hp
    constructor
    · intro x hx
      rw [secs, List.cons_append] at hx
      rcases List.mem_cons.mp hx with e | e
      · subst e; exact ⟨by simp, hp', h3⟩
      · rcases List.mem_append.mp e with e | e
        · exact a1 x e
        · exact b1 x e
    · intro x hx
      rw [secs, List.cons_append] at hx
      rcases List.mem_cons.mp hx with e | e
      · subst e; exact plain_nodup s (fits_distinct true s h4)
      · rcases List.mem_append.mp e with e | e
        · exact a2 x e
        · exact b2 x e

theorem latin_text (ss : List (List Str × List (Str × Str))) (h : GoodSecs ss) : ∀ c ∈ fileText ss, c.toNat < 256 := by
  have hb : ∀ l : List (Str × Str), (∀ kv ∈ l, GoodEntry kv) → ∀ c ∈ bodyText l, c.toNat < 256 := by
    intro l
    induction l with
    | nil => intro _ c hc; cases hc
    | cons kv l ih =>
      intro hl c hc
      have hg := hl kv (List.mem_cons_self ..)
      rw [bodyText, List.mem_append] at hc
      rcases hc with hc | hc
      · rcases List.mem_append.mp hc with e | e
        · exact hg.1 c e
        · rcases List.mem_cons.mp e with e | e
          · subst e; decide
          · exact hg.2.1 c e
      · rcases List.mem_cons.mp hc with e | e
        · subst e; decide
        · rcases List.mem_cons.mp e with e | e
          · subst e; decide
          · exact ih (fun x hx => hl x (List.mem_cons_of_mem _ hx)) c e
  induction ss with
  | nil => intro c hc; cases hc
  | cons s ss ih =>
    intro c hc
    obtain ⟨h1, h2, h3⟩ := h s (List.mem_cons_self ..)
    rw [fileText, List.mem_append] at hc
    rcases hc with hc | hc
    · rw [List.mem_append] at hc
      rcases hc with hc | hc
      · rcases List.mem_cons.mp hc with e | e
        · subst e; decide
        · rcases mem_join _ _ _ e with e | ⟨k, hk, e⟩
          · rw [List.mem_singleton.mp e]; decide
          · exact (h2 k hk).2.1 c e
      · rcases List.mem_cons.mp hc with e | e
        · subst e; decide
        · rcases List.mem_cons.mp e with e | e
          · subst e; decide
          · rcases List.mem_cons.mp e with e | e
            · subst e; decide
            · exact hb s.2 h3.2.1 c e
    · exact ih (fun x hx => h x (List.mem_cons_of_mem _ hx)) c hc

end Beep.Arbin
