import Verif.Proof.Base
import Verif.Proof.Text
import Verif.Proof.Pandas
import Verif.Spec.Features
/-
Lemmas for C45-C47.
-/
namespace Beep.Proof.Features
open Beep Text Pandas Features Spec.Features

variable {HV V : Type}

/-! ### Strings -/

theorem split_first {a b x y : Str} {c : Char} (ha : c ∉ a) (hb : c ∉ b) (h : a ++ c :: x = b ++ c :: y) :
    a = b ∧ x = y := by
  have h1 := split1_append c a x ha
  have h2 := split1_append c b y hb
  rw [h, h2] at h1
  simp only [Prod.mk.injEq, Option.some.injEq] at h1
  exact ⟨h1.1.symm, h1.2.symm⟩

theorem split_last {a b x y : Str} {c : Char} (hx : c ∉ x) (hy : c ∉ y) (h : a ++ c :: x = b ++ c :: y) :
    a = b ∧ x = y := by
  have h' := congrArg List.reverse h
  simp only [List.reverse_append, List.reverse_cons, List.append_assoc, List.cons_append, List.nil_append] at h'
  obtain ⟨h1, h2⟩ := split_first (by simpa using hx) (by simpa using hy) h'
  exact ⟨List.reverse_injective h2, List.reverse_injective h1⟩

theorem opId_inj {env : Env HV} (hd : Digest env) {s t : Source HV V} (hs : ':' ∉ s.cls) (ht : ':' ∉ t.cls)
    (h : opId env s = opId env t) :
    s.cls = t.cls ∧ env.hash (paramStr env s.hyper) = env.hash (paramStr env t.hyper) := by
  unfold opId delim at h
  have := List.append_inj' h (by rw [hd, hd])
  refine ⟨?_, this.2⟩
  have h1 := this.1
  have : s.cls ++ ':' :: [':'] = t.cls ++ ':' :: [':'] := h1
  exact List.append_cancel_right this

theorem colName_inj {env : Env HV} (hd : Digest env) {s t : Source HV V} (hs : ':' ∉ s.cls) (ht : ':' ∉ t.cls)
    {c d : Str} (h : colName env s c = colName env t d) :
    c = d ∧ opId env s = opId env t := by
  unfold colName opId delim at h
  have h1 := List.append_inj' (s₁ := c ++ [':', ':'] ++ (s.cls ++ [':', ':'])) (s₂ := d ++ [':', ':'] ++ (t.cls ++ [':', ':']))
    (t₁ := env.hash (paramStr env s.hyper)) (t₂ := env.hash (paramStr env t.hyper))
    (by simpa [List.append_assoc] using h) (by rw [hd, hd])
  have h2 : (c ++ [':', ':'] ++ s.cls) = (d ++ [':', ':'] ++ t.cls) := by
    apply List.append_cancel_right (bs := [':', ':'])
    simpa [List.append_assoc] using h1.1
  have h3 := split_last (a := c ++ [':']) (b := d ++ [':']) (x := s.cls) (y := t.cls) hs ht (by
    simpa [List.append_assoc] using h2)
  refine ⟨List.append_cancel_right h3.1, ?_⟩
  unfold opId
  rw [h3.2, h1.2]

theorem fileId_inj {env : Env HV} (hd : Digest env) {s t : Source HV V} (hs : ':' ∉ s.cls) (ht : ':' ∉ t.cls)
    {f g c d : Str} (hc : ':' ∉ c) (hd' : ':' ∉ d) (h : fileId env s f c = fileId env t g d) :
    f = g ∧ s.cls = t.cls ∧ env.hash (paramStr env s.hyper) = env.hash (paramStr env t.hyper) ∧ c = d := by
  unfold fileId delim at h
  have h1 := split_last (a := f ++ [':', ':'] ++ opId env s ++ [':']) (b := g ++ [':', ':'] ++ opId env t ++ [':'])
    hc hd' (by simpa [List.append_assoc] using h)
  have h2 : colName env s f = colName env t g := by
    unfold colName delim
    exact List.append_cancel_right h1.1
  obtain ⟨h3, h4⟩ := colName_inj hd hs ht h2
  obtain ⟨h5, h6⟩ := opId_inj hd hs ht h4
  exact ⟨h3, h5, h6, h1.2⟩

/-! ### Sorting by key -/

theorem strLe_refl (s : Str) : strLe s s = true := by
  induction s with
  | nil => rfl
  | cons a s ih => simp [strLe, ih]

theorem strLe_trans (a b c : Str) (h1 : strLe a b = true) (h2 : strLe b c = true) : strLe a c = true := by
  induction a generalizing b c with
  | nil => simp [strLe]
  | cons x a ih =>
    cases b with
    | nil => simp [strLe] at h1
    | cons y b =>
      cases c with
      | nil => simp [strLe] at h2
      | cons z c =>
        simp only [strLe] at h1 h2 ⊢
        split_ifs at h1 with ha hb
        · split_ifs at h2 with hc hd
          · rw [if_pos (by omega)]
          · rw [if_pos (by omega)]
        · split_ifs at h2 with hc hd
          · rw [if_pos (by omega)]
          · rw [if_neg (by omega), if_neg (by omega)]
            exact ih b c h1 h2

theorem strLe_total (a b : Str) : (strLe a b || strLe b a) = true := by
  induction a generalizing b with
  | nil => simp [strLe]
  | cons x a ih =>
    cases b with
    | nil => simp [strLe]
    | cons y b =>
      simp only [strLe]
      split_ifs <;> simp_all

theorem strLe_antisymm (a b : Str) (h1 : strLe a b = true) (h2 : strLe b a = true) : a = b := by
  induction a generalizing b with
  | nil =>
    cases b with
    | nil => rfl
    | cons y b => simp [strLe] at h2
  | cons x a ih =>
    cases b with
    | nil => simp [strLe] at h1
    | cons y b =>
      simp only [strLe] at h1 h2
      split_ifs at h1 with ha hb
      · rw [if_neg (by omega)] at h2
        simp [ha] at h2
      · rw [if_neg hb, if_neg ha] at h2
        have hxy : x = y := by
          apply Char.ext
          apply UInt32.toNat_inj.mp
          have e1 : x.toNat = x.val.toNat := rfl
          have e2 : y.toNat = y.val.toNat := rfl
          omega
        rw [hxy, ih b h1 h2]

theorem sorted_sortedParams (h : Dict Str HV) :
    (sortedParams h).Pairwise (fun a b => strLe a.1 b.1 = true) :=
  pairwise_sortBy _ (fun a b c => strLe_trans a.1 b.1 c.1) (fun a b => strLe_total a.1 b.1) h

/-- dictionaries with the same entries are written the same way -/
theorem sortedParams_perm {h h' : Dict Str HV} (wf : Dict.WF h) (hp : h.Perm h') :
    sortedParams h = sortedParams h' := by
  have p : (sortedParams h).Perm (sortedParams h') :=
    (sortBy_perm _ h).trans (hp.trans (sortBy_perm _ h').symm)
  refine p.eq_of_pairwise ?_ (sorted_sortedParams h) (sorted_sortedParams h')
  intro a b ha hb h1 h2
  have hk := strLe_antisymm _ _ h1 h2
  have ha' : a ∈ h := mem_sortBy.mp ha
  have hb' : b ∈ h := hp.mem_iff.mpr (mem_sortBy.mp hb)
  obtain ⟨k, v⟩ := a
  obtain ⟨k', v'⟩ := b
  simp only at hk
  subst hk
  have e1 := Dict.get?_of_mem wf ha'
  have e2 := Dict.get?_of_mem wf hb'
  rw [e1] at e2
  cases e2
  rfl

theorem paramStr_perm (env : Env HV) {h h' : Dict Str HV} (wf : Dict.WF h) (hp : h.Perm h') :
    paramStr env h = paramStr env h' := by
  unfold paramStr
  rw [sortedParams_perm wf hp]

/-! ### Collecting -/

/-- the identifiers of a source -/
def idsOf (env : Env HV) (s : Source HV V) : List Str :=
  match s.features, s.path with
  | some fr, some f => fr.columns.map (fileId env s f)
  | _, _ => []

/-- the cells of a source -/
def cellsOf (env : Env HV) (s : Source HV V) : List (Str × V) :=
  match s.features with
  | some ⟨columns, [row]⟩ => (columns.map (colName env s)).zip row
  | _ => []

def entryOf (env : Env HV) (s : Source HV V) : Str × List (Str × V) := (s.path.getD [], cellsOf env s)

theorem collectOne_iff (env : Env HV) (st st' : Collected V) (s : Source HV V) :
    collectOne env st s = .ok st' ↔ Joinable s ∧ (∀ c ∈ idsOf env s, c ∉ st.ids) ∧
      st' = ⟨st.ids ++ idsOf env s, st.entries ++ [entryOf env s]⟩ := by
  unfold collectOne Joinable idsOf entryOf cellsOf
  cases hf : s.features with
  | none => simp
  | some fr =>
    obtain ⟨cols, rows⟩ := fr
    match rows with
    | [] => simp
    | [row] =>
      cases hp : s.path with
      | none => simp
      | some p =>
        cases p with
        | nil => simp
        | cons ch p =>
          simp only [Option.some.injEq, Option.getD_some]
          by_cases hc : (List.any (cols.map (fileId env s (ch :: p))) fun c => decide (c ∈ st.ids)) = true
          · rw [if_pos hc]
            constructor
            · intro h; cases h
            · rintro ⟨-, h, -⟩
              obtain ⟨c, hc1, hc2⟩ := List.any_eq_true.mp hc
              exact absurd (of_decide_eq_true hc2) (h c hc1)
          · rw [if_neg hc]
            constructor
            · intro h
              cases h
              refine ⟨⟨⟨_, row, rfl, rfl⟩, _, rfl, by simp⟩, ?_, rfl⟩
              intro c hc1 hc2
              exact hc (List.any_eq_true.mpr ⟨c, hc1, by simpa using hc2⟩)
            · rintro ⟨-, -, h⟩
              rw [h]
    | r :: r' :: rest => simp

theorem collect_iff (env : Env HV) (bfs : List (Source HV V)) : ∀ (st st' : Collected V),
    collect env st bfs = .ok st' ↔ (∀ s ∈ bfs, Joinable s) ∧
      (∀ s ∈ bfs, ∀ c ∈ idsOf env s, c ∉ st.ids) ∧
      bfs.Pairwise (fun s t => ∀ c ∈ idsOf env t, c ∉ idsOf env s) ∧
      st' = ⟨st.ids ++ bfs.flatMap (idsOf env), st.entries ++ bfs.map (entryOf env)⟩ := by
  induction bfs with
  | nil =>
    intro st st'
    simp only [collect, Except.ok.injEq, List.not_mem_nil, false_implies, implies_true, List.Pairwise.nil,
      List.flatMap_nil, List.append_nil, List.map_nil, true_and]
    exact eq_comm
  | cons s ss ih =>
    intro st st'
    simp only [collect, bind, Except.bind]
    cases h1 : collectOne env st s with
    | error e =>
      simp only [reduceCtorEq, false_iff]
      rintro ⟨hj, hd, -, -⟩
      have := (collectOne_iff env st _ s).mpr ⟨hj s (by simp), hd s (by simp), rfl⟩
      rw [h1] at this
      cases this
    | ok st₁ =>
      simp only
      obtain ⟨a, b, rfl⟩ := (collectOne_iff env st st₁ s).mp h1
      rw [ih]
      simp only [List.mem_cons, forall_eq_or_imp, List.pairwise_cons, List.flatMap_cons, List.map_cons,
        List.mem_append, not_or]
      constructor
      · rintro ⟨c1, c2, c3, rfl⟩
        refine ⟨⟨a, c1⟩, ⟨b, fun t ht c hc => (c2 t ht c hc).1⟩, ⟨fun t ht c hc => (c2 t ht c hc).2, c3⟩, ?_⟩
        simp
      · rintro ⟨⟨-, c1⟩, ⟨-, c2⟩, ⟨c3, c4⟩, rfl⟩
        refine ⟨c1, fun t ht c hc => ⟨c2 t ht c hc, c3 t ht c hc⟩, c4, ?_⟩
        simp

/-- the matrix in terms of what was collected -/
theorem matrix_iff (env : Env HV) (bfs : List (Source HV V)) (m : Matrix V) :
    matrix env bfs = .ok (some m) ↔ bfs ≠ [] ∧ (∀ s ∈ bfs, Joinable s) ∧
      bfs.Pairwise (fun s t => ∀ c ∈ idsOf env t, c ∉ idsOf env s) ∧
      m = (let es := bfs.map (entryOf env)
        let rows := (unique (es.map Prod.fst)).map (fun f => (f, fileRow es f))
        let columns := unique (rows.flatMap (fun r => r.2.map Prod.fst))
        { columns := columns, rows := rows.map (fun r => (r.1, columns.map (Dict.get? r.2))) }) := by
  unfold matrix
  cases bfs with
  | nil => simp
  | cons s ss =>
    simp only [bind, Except.bind]
    cases h1 : collect env ⟨[], []⟩ (s :: ss) with
    | error e =>
      simp only [reduceCtorEq, false_iff]
      rintro ⟨-, hj, hd, -⟩
      have := (collect_iff env (s :: ss) ⟨[], []⟩ _).mpr ⟨hj, by simp, hd, rfl⟩
      rw [h1] at this
      cases this
    | ok st =>
      obtain ⟨a, -, b, rfl⟩ := (collect_iff env (s :: ss) ⟨[], []⟩ st).mp h1
      simp only [List.nil_append, Except.ok.injEq, Option.some.injEq]
      constructor
      · intro h
        exact ⟨by simp, a, b, h.symm⟩
      · rintro ⟨-, -, -, h⟩
        exact h.symm

/-! ### Cells -/

theorem zip_map_find (cols : List Str) (g : Str → Option V) (c : Str) :
    (cols.zip (cols.map g)).find? (fun x => x.1 = c) = if c ∈ cols then some (c, g c) else none := by
  induction cols with
  | nil => simp
  | cons a cols ih =>
    simp only [List.map_cons, List.zip_cons_cons, List.find?_cons, List.mem_cons]
    by_cases h : a = c
    · subst h; simp
    · have h' : ¬ c = a := fun e => h e.symm
      simp only [h, decide_false, ih, h', false_or]

theorem rows_find (files : List Str) (row : Str → List (Option V)) (f : Str) :
    (files.map (fun g => (g, row g))).find? (fun r => r.1 = f) = if f ∈ files then some (f, row f) else none := by
  induction files with
  | nil => simp
  | cons a files ih =>
    simp only [List.map_cons, List.find?_cons, List.mem_cons]
    by_cases h : a = f
    · subst h; simp
    · have h' : ¬ f = a := fun e => h e.symm
      simp only [h, decide_false, ih, h', false_or]

theorem fileRow_nil (es : List (Str × List (Str × V))) (f : Str) (h : f ∉ es.map Prod.fst) : fileRow es f = [] := by
  unfold fileRow
  have : es.filter (fun e => e.1 = f) = [] := by
    rw [List.filter_eq_nil_iff]
    intro e he
    simp only [decide_eq_true_eq]
    intro hf
    exact h (List.mem_map.mpr ⟨e, he, hf⟩)
  rw [this]
  rfl

theorem cell_eq (es : List (Str × List (Str × V))) (f c : Str) :
    cell (let rows := (unique (es.map Prod.fst)).map (fun f => (f, fileRow es f))
      let columns := unique (rows.flatMap (fun r => r.2.map Prod.fst))
      ({ columns := columns, rows := rows.map (fun r => (r.1, columns.map (Dict.get? r.2))) } : Matrix V)) f c =
    Dict.get? (fileRow es f) c := by
  unfold cell
  simp only [List.map_map, Function.comp_def]
  rw [rows_find]
  by_cases hf : f ∈ unique (es.map Prod.fst)
  · rw [if_pos hf]
    simp only
    rw [zip_map_find]
    split
    · rename_i h; split at h
      · cases h
      · rename_i hc
        rw [eq_comm, Dict.get?_eq_none_iff]
        intro hk
        apply hc
        rw [mem_unique, List.mem_flatMap]
        exact ⟨_, List.mem_map.mpr ⟨f, hf, rfl⟩, hk⟩
    · rename_i x h; split at h
      · cases h; rfl
      · cases h
  · rw [if_neg hf, fileRow_nil es f (fun h => hf (mem_unique.mpr h))]
    rfl

theorem mem_fileRow (es : List (Str × List (Str × V))) (f : Str) (x : Str × V) :
    x ∈ fileRow es f ↔ ∃ e ∈ es, e.1 = f ∧ x ∈ e.2 := by
  unfold fileRow
  rw [mem_sortBy, List.mem_flatMap]
  constructor
  · rintro ⟨e, he, hx⟩
    obtain ⟨h1, h2⟩ := List.mem_filter.mp he
    exact ⟨e, h1, by simpa using h2, hx⟩
  · rintro ⟨e, he, hf, hx⟩
    exact ⟨e, List.mem_filter.mpr ⟨he, by simpa using hf⟩, hx⟩

theorem mem_cellsOf (env : Env HV) (s : Source HV V) (f : Str) (hp : s.path = some f)
    (hj : Joinable s) (n : Str) (v : V) :
    (n, v) ∈ cellsOf env s ↔ ∃ c, Has s f c v ∧ n = colName env s c := by
  obtain ⟨⟨fr, row, hfr, hrow⟩, -⟩ := hj
  obtain ⟨cols, rows⟩ := fr
  simp only at hrow
  subst hrow
  unfold cellsOf Has
  rw [hfr]
  simp only [List.mem_iff_getElem?]
  constructor
  · rintro ⟨i, hi⟩
    rw [List.getElem?_zip_eq_some, List.getElem?_map] at hi
    obtain ⟨h1, h2⟩ := hi
    rw [Option.map_eq_some_iff] at h1
    obtain ⟨c, hc, rfl⟩ := h1
    exact ⟨c, ⟨hp, _, row, i, rfl, rfl, hc, h2⟩, rfl⟩
  · rintro ⟨c, ⟨-, fr, row', i, e1, e2, h1, h2⟩, rfl⟩
    cases e1
    cases e2
    refine ⟨i, ?_⟩
    rw [List.getElem?_zip_eq_some, List.getElem?_map, h1]
    exact ⟨rfl, h2⟩

/-- all cells collected for one file have different names -/
theorem fileRow_WF (env : Env HV) (hd : Digest env) (bfs : List (Source HV V))
    (hg : ∀ s ∈ bfs, GoodSource s) (hj : ∀ s ∈ bfs, Joinable s)
    (hp : bfs.Pairwise (fun s t => ∀ c ∈ idsOf env t, c ∉ idsOf env s)) (f : Str) :
    Dict.WF (fileRow (bfs.map (entryOf env)) f) := by
  unfold Dict.WF Dict.keys fileRow
  rw [((sortBy_perm _ _).map Prod.fst).nodup_iff]
  induction bfs with
  | nil => simp
  | cons s ss ih =>
    have ih := ih (fun t ht => hg t (List.mem_cons_of_mem _ ht)) (fun t ht => hj t (List.mem_cons_of_mem _ ht))
      (List.pairwise_cons.mp hp).2
    rw [List.map_cons, List.filter_cons]
    by_cases hf : (entryOf env s).1 = f
    · simp only [hf, decide_true, if_true, List.flatMap_cons, List.map_append]
      have hjs := hj s (by simp)
      have hjs' := hjs
      obtain ⟨⟨fr, row, hfr, hrow⟩, g, hg1, hg2⟩ := hjs'
      have hgf : g = f := by
        unfold entryOf at hf
        rw [hg1] at hf
        exact hf
      subst hgf
      rw [List.nodup_append]
      refine ⟨?_, ih, ?_⟩
      · have hgs := hg s (by simp)
        obtain ⟨hn, hl⟩ := hgs.2.2 fr hfr
        obtain ⟨cols, rows⟩ := fr
        simp only at hrow
        subst hrow
        have hl := hl row (by simp)
        simp only at hl hn
        unfold entryOf cellsOf
        rw [hfr]
        simp only
        rw [List.map_fst_zip (by rw [List.length_map, hl])]
        refine List.Nodup.map_on ?_ hn
        intro a _ b _ hab
        exact (colName_inj hd hgs.1 hgs.1 hab).1
      · intro n hn n' hn' hne
        subst hne
        obtain ⟨⟨n1, v⟩, hv, rfl⟩ := List.mem_map.mp hn
        obtain ⟨⟨n2, v'⟩, hv', e⟩ := List.mem_map.mp hn'
        simp only at e
        subst e
        obtain ⟨e, he, hx⟩ := List.mem_flatMap.mp hv'
        obtain ⟨he1, he2⟩ := List.mem_filter.mp he
        obtain ⟨t, ht, rfl⟩ := List.mem_map.mp he1
        have hjt := hj t (List.mem_cons_of_mem _ ht)
        obtain ⟨⟨frt, rowt, hfrt, hrowt⟩, gt, hgt1, hgt2⟩ := hjt
        have hgtf : gt = g := by
          have := of_decide_eq_true he2
          unfold entryOf at this
          rw [hgt1] at this
          exact this
        subst hgtf
        obtain ⟨c, hc, ec⟩ := (mem_cellsOf env s gt hg1 hjs n2 v).mp hv
        obtain ⟨c', hc', ec'⟩ := (mem_cellsOf env t gt hgt1 (hj t (List.mem_cons_of_mem _ ht)) n2 v').mp hx
        rw [ec] at ec'
        obtain ⟨rfl, hop⟩ := colName_inj hd (hg s (by simp)).1 (hg t (List.mem_cons_of_mem _ ht)).1 ec'
        have hcol := (List.pairwise_cons.mp hp).1 t ht (fileId env t gt c)
        apply hcol
        · unfold idsOf
          rw [hfrt, hgt1]
          obtain ⟨-, fr', row', i, e1, -, e2, -⟩ := hc'
          rw [hfrt] at e1
          cases e1
          exact List.mem_map_of_mem (List.mem_of_getElem? e2)
        · unfold idsOf
          rw [hfr, hg1]
          obtain ⟨-, fr', row', i, e1, -, e2, -⟩ := hc
          rw [hfr] at e1
          cases e1
          have : fileId env t gt c = fileId env s gt c := by
            unfold fileId
            rw [hop]
          rw [this]
          exact List.mem_map_of_mem (List.mem_of_getElem? e2)
    · simp only [hf, decide_false, Bool.false_eq_true, if_false]
      exact ih

/-! ### Parameter strings -/

/-- the text after the first key -/
theorem join_cons (sep a : Str) (l : List Str) :
    join sep (a :: l) = a ++ (if l = [] then [] else sep ++ join sep l) := by
  cases l with
  | nil => simp [join]
  | cons b l => simp [join]

theorem params_inj (render : HV → Str) : ∀ (p q : Dict Str HV), p.map Prod.fst = q.map Prod.fst →
    (∀ kv ∈ p, ':' ∉ kv.1 ∧ ':' ∉ render kv.2) → (∀ kv ∈ q, ':' ∉ render kv.2) →
    join ['-'] (p.map (fun kv => kv.1 ++ ':' :: render kv.2)) =
      join ['-'] (q.map (fun kv => kv.1 ++ ':' :: render kv.2)) →
    p.map (fun kv => render kv.2) = q.map (fun kv => render kv.2) := by
  intro p
  induction p with
  | nil =>
    intro q hk _ _ _
    have : q = [] := by simpa using hk.symm
    subst this
    rfl
  | cons a p ih =>
    intro q hk hp hq hj
    cases q with
    | nil => simp at hk
    | cons b q =>
      obtain ⟨k, v⟩ := a
      obtain ⟨k', w⟩ := b
      simp only [List.map_cons, List.cons.injEq] at hk
      obtain ⟨rfl, hk⟩ := hk
      simp only [List.map_cons] at hj ⊢
      rw [join_cons, join_cons, List.append_assoc, List.append_assoc] at hj
      have hj := List.append_cancel_left hj
      simp only [List.cons_append, List.cons.injEq, true_and] at hj
      have hv := (hp (k, v) (by simp)).2
      have hw := hq (k, w) (by simp)
      simp only at hv hw
      cases p with
      | nil =>
        have : q = [] := by simpa using hk.symm
        subst this
        simpa using hj
      | cons a' p =>
        cases q with
        | nil => simp at hk
        | cons b' q =>
          obtain ⟨k2, v2⟩ := a'
          obtain ⟨k2', w2⟩ := b'
          have hk2 : k2 = k2' := by simp at hk; exact hk.1
          subst hk2
          have hkc := (hp (k2, v2) (by simp)).1
          simp only at hkc
          have key : (render v ++ '-' :: k2) = (render w ++ '-' :: k2) := by
            simp only [List.map_cons, reduceCtorEq, if_false] at hj
            rw [join_cons, join_cons] at hj
            have := split_first (c := ':') (a := render v ++ '-' :: k2) (b := render w ++ '-' :: k2)
              (x := render v2 ++ _) (y := render w2 ++ _)
              (by simp [hv, hkc]) (by simp [hw, hkc]) (by simpa [List.append_assoc] using hj)
            exact this.1
          have e := List.append_cancel_right key
          rw [e] at hj ⊢
          have hj := List.append_cancel_left hj
          simp only [List.map_cons, reduceCtorEq, if_false, List.cons_append, List.nil_append, List.cons.injEq,
            true_and] at hj
          have := ih ((k2, w2) :: q) hk (fun kv h => hp kv (List.mem_cons_of_mem _ h))
            (fun kv h => hq kv (List.mem_cons_of_mem _ h)) (by simpa using hj)
          rw [this]

theorem keys_sorted {h h' : Dict Str HV} (hp : (Dict.keys h).Perm (Dict.keys h')) :
    (sortedParams h).map Prod.fst = (sortedParams h').map Prod.fst := by
  have p : ((sortedParams h).map Prod.fst).Perm ((sortedParams h').map Prod.fst) :=
    ((sortBy_perm _ h).map _).trans (hp.trans ((sortBy_perm _ h').map _).symm)
  refine p.eq_of_pairwise (le := fun a b => strLe a b = true) ?_ ?_ ?_
  · intro a b _ _ h1 h2
    exact strLe_antisymm a b h1 h2
  · exact List.pairwise_map.mpr (sorted_sortedParams h)
  · exact List.pairwise_map.mpr (sorted_sortedParams h')

theorem dict_eq_of_maps {A B C : Type} {p q : List (A × B)} (r : B → C) (hk : p.map Prod.fst = q.map Prod.fst)
    (hv : p.map (fun kv => r kv.2) = q.map (fun kv => r kv.2))
    (hr : ∀ x ∈ p, ∀ y ∈ q, r x.2 = r y.2 → x.2 = y.2) : p = q := by
  induction p generalizing q with
  | nil => cases q with
    | nil => rfl
    | cons b q => simp at hk
  | cons a p ih =>
    cases q with
    | nil => simp at hk
    | cons b q =>
      simp only [List.map_cons, List.cons.injEq] at hk hv
      have e := hr a (by simp) b (by simp) hv.1
      rw [ih hk.2 hv.2 (fun x hx y hy => hr x (List.mem_cons_of_mem _ hx) y (List.mem_cons_of_mem _ hy))]
      rw [Prod.ext hk.1 e]

theorem get?_perm {h h' : Dict Str HV} (wf : Dict.WF h) (hp : h.Perm h') (k : Str) :
    Dict.get? h k = Dict.get? h' k := by
  have wf' : Dict.WF h' := by
    unfold Dict.WF Dict.keys at *
    exact (hp.map _).nodup_iff.mp wf
  cases e : Dict.get? h k with
  | some v =>
    exact ((Dict.get?_eq_some_iff wf').mpr (hp.mem_iff.mp ((Dict.get?_eq_some_iff wf).mp e))).symm
  | none =>
    rw [eq_comm, Dict.get?_eq_none_iff]
    rw [Dict.get?_eq_none_iff] at e
    intro hk
    exact e ((hp.map Prod.fst).mem_iff.mpr hk)

/-! ### Round trip -/

theorem getElem?_filterMap_full {A B : Type} (l : List A) (g : A → Option B) (h : ∀ a ∈ l, (g a).isSome = true)
    (i : Nat) : (l.filterMap g)[i]? = l[i]?.bind g := by
  induction l generalizing i with
  | nil => simp
  | cons a l ih =>
    obtain ⟨b, hb⟩ := Option.isSome_iff_exists.mp (h a (by simp))
    rw [List.filterMap_cons, hb]
    cases i with
    | zero => simp [hb]
    | succ i => simpa using ih (fun x hx => h x (List.mem_cons_of_mem _ hx)) i

theorem length_filterMap_full {A B : Type} (l : List A) (g : A → Option B) (h : ∀ a ∈ l, (g a).isSome = true) :
    (l.filterMap g).length = l.length := by
  induction l with
  | nil => rfl
  | cons a l ih =>
    obtain ⟨b, hb⟩ := Option.isSome_iff_exists.mp (h a (by simp))
    rw [List.filterMap_cons, hb]
    simp [ih (fun x hx => h x (List.mem_cons_of_mem _ hx))]

theorem toColumns_getElem? (f : Frame V) (j : Nat) :
    (toColumns f)[j]? = f.columns[j]?.map (fun c => (c, f.rows.filterMap (fun r => r[j]?))) := by
  unfold toColumns
  rw [List.getElem?_map]
  by_cases hj : j < f.columns.length
  · rw [List.getElem?_eq_getElem hj]
    have : ((List.range f.columns.length).zip f.columns)[j]? = some (j, f.columns[j]) := by
      rw [List.getElem?_zip_eq_some]
      exact ⟨by rw [List.getElem?_range hj], List.getElem?_eq_getElem hj⟩
    rw [this]
    rfl
  · have e1 : f.columns[j]? = none := List.getElem?_eq_none (by omega)
    have e2 : ((List.range f.columns.length).zip f.columns)[j]? = none :=
      List.getElem?_eq_none (by simp; omega)
    rw [e1, e2]
    rfl

theorem ofColumns_toColumns (f : Frame V) (hg : GoodFrame f) (hc : f.columns ≠ []) :
    ofColumns (toColumns f) = f := by
  obtain ⟨cols, rows⟩ := f
  have hrows := hg.2
  simp only at hrows hc
  have hcol : (toColumns ⟨cols, rows⟩).map Prod.fst = cols := by
    apply List.ext_getElem?
    intro j
    rw [List.getElem?_map, toColumns_getElem?]
    simp only [Option.map_map, Function.comp_def]
    simp
  have hfull : ∀ j < cols.length, ∀ r ∈ rows, (r[j]?).isSome = true := by
    intro j hj r hr
    rw [List.getElem?_eq_getElem (by rw [hrows r hr]; exact hj)]
    rfl
  unfold ofColumns
  rw [hcol]
  congr 1
  have hlen : (toColumns ⟨cols, rows⟩).length = cols.length := by
    have := congrArg List.length hcol
    simpa using this
  obtain ⟨c0, cs0, rfl⟩ : ∃ c0 cs0, cols = c0 :: cs0 := by
    cases cols with
    | nil => exact absurd rfl hc
    | cons a l => exact ⟨a, l, rfl⟩
  cases ht : toColumns ⟨c0 :: cs0, rows⟩ with
  | nil => rw [ht] at hlen; simp at hlen
  | cons x xs =>
    obtain ⟨n0, vs0⟩ := x
    have h0 := toColumns_getElem? (⟨c0 :: cs0, rows⟩ : Frame V) 0
    rw [ht] at h0
    simp only [List.getElem?_cons_zero, Option.map_some, Option.some.injEq, Prod.mk.injEq] at h0
    have hvs : vs0.length = rows.length := by
      rw [h0.2]
      exact length_filterMap_full rows _ (hfull 0 (by simp))
    simp only
    rw [hvs, ← ht]
    apply List.ext_getElem?
    intro i
    rw [List.getElem?_map]
    by_cases hi : i < rows.length
    · rw [List.getElem?_range hi, List.getElem?_eq_getElem hi]
      simp only [Option.map_some, Option.some.injEq]
      apply List.ext_getElem?
      intro j
      rw [getElem?_filterMap_full]
      · rw [toColumns_getElem?]
        by_cases hj : j < (c0 :: cs0).length
        · rw [List.getElem?_eq_getElem hj]
          simp only [Option.map_some, Option.bind_some]
          rw [getElem?_filterMap_full _ _ (hfull j hj), List.getElem?_eq_getElem hi]
          rfl
        · have e1 : (c0 :: cs0)[j]? = none := List.getElem?_eq_none (by omega)
          have e2 : rows[i][j]? = none := by
            apply List.getElem?_eq_none
            rw [hrows _ (List.getElem_mem hi)]
            omega
          simp only [e1, e2, Option.map_none, Option.bind_none]
      · intro a ha
        obtain ⟨j, hj⟩ := List.mem_iff_getElem?.mp ha
        rw [toColumns_getElem?, Option.map_eq_some_iff] at hj
        obtain ⟨c, hc, rfl⟩ := hj
        have hjl : j < (c0 :: cs0).length := (List.getElem?_eq_some_iff.mp hc).1
        simp only
        rw [List.getElem?_eq_getElem (by rw [length_filterMap_full _ _ (hfull j hjl)]; exact hi)]
        rfl
    · rw [List.getElem?_eq_none (by simp; omega), List.getElem?_eq_none (by omega)]
      rfl

end Beep.Proof.Features
