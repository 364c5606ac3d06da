import Verif.Proof.BiologicFile
/-
C124: the tables read from Biologic exports.
-/
namespace Beep.Props.BiologicFile
open Beep Beep.BiologicFile Beep.Spec.BiologicFile Beep.Proof.BiologicFile

theorem getFileType_iff (path : Str) (lines : List Str) (n : Nat) (sep : Char) (h d : Nat) :
    (∃ enc, getFileType path lines n = .ok (sep, enc, h, d)) ↔
      Separated path sep ∧ ∃ k, Header lines k ∧ h = k + 1 ∧ d = k + 2 ∧ k + 1 < n := by
  unfold getFileType
  constructor
  · rintro ⟨enc, e⟩
    simp only [bind, Except.bind] at e
    cases ht : fileType path with
    | error x => rw [ht] at e; cases e
    | ok t =>
      rw [ht] at e
      simp only at e
      cases hf : findHeader n 1 lines with
      | error x => rw [hf] at e; cases e
      | ok h' =>
        rw [hf] at e
        cases e
        obtain ⟨k, e1, e2, e3⟩ := (findHeader_iff n 1 lines _).mp hf
        exact ⟨(fileType_iff path t.1).mp ⟨t.2, ht⟩, k, e2, by omega, by omega, by omega⟩
  · rintro ⟨h1, k, h2, rfl, rfl, h3⟩
    obtain ⟨enc, he⟩ := (fileType_iff path sep).mpr h1
    have hf := (findHeader_iff n 1 lines (k + 1)).mpr ⟨k, by omega, h2, by omega⟩
    refine ⟨enc, ?_⟩
    rw [he]
    simp only [bind, Except.bind]
    rw [hf]
    rfl

/-- C124, the header: the reader takes the separator from the extension and the first line that
names the columns.  Missing: a header on the last of the lines it searches. -/
theorem C124_header_partial (path : Str) (lines : List Str) (n : Nat) (sep : Char) (h d : Nat) :
    (∃ enc, getFileType path lines n = .ok (sep, enc, h, d)) ↔
      Separated path sep ∧ ∃ k, Header lines k ∧ h = k + 1 ∧ d = k + 2 ∧ k + 1 < n :=
  getFileType_iff path lines n sep h d

/-- C124 fails on the last line searched: when the header is on that line, the reader finds it and
still reports that there is no header in the first `n` lines. -/
theorem C124_header_violated (path : Str) (lines : List Str) (n k : Nat) (sep : Char) (hs : Separated path sep)
    (hk : Header lines k) (hn : k + 1 = n) : getFileType path lines n = .error .keyError := by
  obtain ⟨enc, he⟩ := (fileType_iff path sep).mpr hs
  unfold getFileType
  rw [he]
  simp only [bind, Except.bind]
  cases hf : findHeader n 1 lines with
  | error e => rw [findHeader_err _ _ _ _ hf]
  | ok h =>
    exfalso
    obtain ⟨k', _, hk', hlt⟩ := (findHeader_iff n 1 lines h).mp hf
    rcases Nat.lt_trichotomy k k' with c | c | c
    · obtain ⟨⟨l, hl, hnm⟩, _⟩ := hk
      exact hk'.2 k l c hl hnm
    · omega
    · obtain ⟨⟨l, hl, hnm⟩, _⟩ := hk'
      exact hk.2 k' l c hl hnm

theorem colOf_mem {cfg : List Column} (hcfg : (cfg.map Column.name).Nodup) {c : Column} (hc : c ∈ cfg) :
    colOf cfg c.name = some c := by
  unfold colOf
  induction cfg with
  | nil => cases hc
  | cons a l ih =>
    rw [List.map_cons, List.nodup_cons] at hcfg
    rw [List.find?_cons]
    rcases List.mem_cons.mp hc with rfl | hc
    · simp
    · have hne : a.name ≠ c.name := fun e => hcfg.1 (e ▸ List.mem_map.mpr ⟨c, hc, rfl⟩)
      simp only [hne, decide_false]
      exact ih hcfg.2 hc

theorem colOf_none {cfg : List Column} {n : Str} (h : n ∉ cfg.map Column.name) : colOf cfg n = none := by
  unfold colOf
  rw [List.find?_eq_none]
  intro c hc
  simp only [decide_eq_true_eq]
  rintro rfl
  exact h (List.mem_map.mpr ⟨c, hc, rfl⟩)

theorem get_of_pick {cfg : List Column} {data : Dict Str (List Cell)} {raw : Dict Str (List Cell)}
    (h : List.Forall₂ (fun (c : Column) (d : Str × List Cell) => d.1 = c.beep ∧ raw.get? c.name = some d.2) cfg data)
    (hb : (cfg.map Column.beep).Nodup) {c : Column} (hc : c ∈ cfg) :
    ∃ l, (c.beep, l) ∈ data ∧ data.get? c.beep = some l ∧ raw.get? c.name = some l := by
  induction h with
  | nil => cases hc
  | @cons a d l ds hd _ ih =>
    rw [List.map_cons, List.nodup_cons] at hb
    rcases List.mem_cons.mp hc with rfl | hc
    · refine ⟨d.2, ?_, ?_, hd.2⟩
      · rw [← hd.1]; exact List.mem_cons_self ..
      · obtain ⟨d1, d2⟩ := d
        simp only at hd
        rw [Dict.get?, if_pos hd.1]
    · obtain ⟨l', h1, h2, h3⟩ := ih hb.2 hc
      refine ⟨l', List.mem_cons_of_mem _ h1, ?_, h3⟩
      obtain ⟨d1, d2⟩ := d
      simp only at hd
      rw [Dict.get?, if_neg]
      · exact h2
      · rintro e
        exact hb.1 (List.mem_map.mpr ⟨c, hc, by rw [← e, hd.1]⟩)

/-- the split of a line into fields, taken out of the rows of a filter -/
theorem lines_forall {sep : Char} {names : List Str} {num : Str → Except Err (Option Rat)} {col : Option Column}
    {name : Str} {j : Nat} (hj : names[j]? = some name) (data : List Str) (l : List Cell)
    (h : List.Forall₂ (fun row v => ∃ x, row[j]? = some x ∧ convert num col x = .ok v)
      ((data.map (Text.splitC sep)).filter (fun r => decide (j < r.length))) l) :
    List.Forall₂ (fun line v => ∃ x, Under sep names line name x ∧ convert num col x = .ok v)
      (data.filter (fun s => decide (j < (Text.splitC sep s).length))) l := by
  rw [List.filter_map, List.forall₂_map_left_iff] at h
  refine List.Forall₂.imp ?_ h
  rintro line v ⟨x, h1, h2⟩
  exact ⟨x, ⟨_, j, splitC_fields sep line, hj, h1⟩, h2⟩

/-- C124, the table (files whose column names differ).  There is a choice of data lines such that
row `i` of every column comes from the same line, the `i`-th chosen one: a line has all of the
configured fields or none of them.  Each value is the field under the name of its column, read
as the column demands; the cycle index is taken from its own column or from the cycle number. -/
theorem C124_rows_partial (num : Str → Except Err (Option Rat)) (cfg : List Column) (path : Str) (lines : List Str)
    (t : Dict Str (List Cell)) (hcfg : (cfg.map Column.name).Nodup) (hbeep : (cfg.map Column.beep).Nodup)
    (hdp : "data_point".toList ∉ cfg.map Column.beep) (hcn : "cycle number".toList ∉ cfg.map Column.name)
    (sep : Char) (hsep : Separated path sep) (k : Nat) (hk : Header lines k) (head : Str)
    (hhead : lines[k]? = some head) (names : List Str) (hn : Fields sep head names) (hnd : names.Nodup)
    (h : fromFile num cfg path lines = .ok t) :
    ∃ P : Str → Bool,
      (∀ line ∈ lines.drop (k + 1), ∀ fs, Fields sep line fs → ∀ (j : Nat) name, names[j]? = some name →
        name = "cycle number".toList ∨ (∃ c ∈ cfg, c.name = name) → (P line = true ↔ j < fs.length)) ∧
      (∀ c ∈ cfg, ∃ col, t.get? c.beep = some col ∧
        ((c.name ∈ names ∧ List.Forall₂ (fun line v => ∃ x, Under sep names line c.name x ∧ Reads num c x v)
            ((lines.drop (k + 1)).filter P) col) ∨
         (c.name = "cycle_index".toList ∧ c.name ∉ names ∧
          List.Forall₂ (fun line v => ∃ x q z, Under sep names line "cycle number".toList x ∧ num x = .ok (some q) ∧
            Whole q z ∧ v = .int z) ((lines.drop (k + 1)).filter P) col))) ∧
      t.get? "data_point".toList =
        some ((List.range ((lines.drop (k + 1)).filter P).length).map (fun i : Nat => Cell.int ((i : Int) + 1))) := by
  rw [fields_iff] at hn
  unfold fromFile at h
  simp only [bind, Except.bind] at h
  cases hf : getFileType path lines 200 with
  | error e => rw [hf] at h; cases h
  | ok ft =>
    rw [hf] at h
    obtain ⟨sep', enc, hl, dl⟩ := ft
    obtain ⟨h1, k', h2, rfl, rfl, _⟩ := (getFileType_iff path lines 200 sep' hl dl).mp ⟨enc, hf⟩
    have es : sep' = sep := by
      obtain ⟨e1, x1⟩ := (fileType_iff path sep').mpr h1
      obtain ⟨e2, x2⟩ := (fileType_iff path sep).mpr hsep
      rw [x1] at x2
      cases x2
      rfl
    subst es
    have ek : k' = k := by
      rcases Nat.lt_trichotomy k k' with c | c | c
      · obtain ⟨⟨l, hl, hnm⟩, _⟩ := hk
        exact absurd hnm (h2.2 k l c hl)
      · exact c.symm
      · obtain ⟨⟨l, hl, hnm⟩, _⟩ := h2
        exact absurd hnm (hk.2 k' l c hl)
    subst ek
    simp only [Nat.add_sub_cancel, hhead, Option.getD_some, hn] at h
    generalize lines.drop (k' + 1) = data at h ⊢
    cases hr : addRows num cfg names (emptyRaw names) (data.map (Text.splitC sep')) with
    | error e => rw [hr] at h; cases h
    | ok raw =>
      rw [hr] at h
      simp only at h
      -- every column of the header
      have hcol : ∀ (j : Nat) name, names[j]? = some name → ∃ l, raw.get? name = some l ∧
          List.Forall₂ (fun line v => ∃ x, Under sep' names line name x ∧ convert num (colOf cfg name) x = .ok v)
            (data.filter (fun s => decide (j < (Text.splitC sep' s).length))) l := by
        intro j name hj
        obtain ⟨l, e1, e2⟩ := addRows_get num cfg names hnd _ raw _ hr j name hj []
          (by rw [emptyRaw_get, if_pos (List.mem_of_getElem? hj)])
        exact ⟨l, by simpa using e1, lines_forall hj data l e2⟩
      have hnocol : ∀ name, name ∉ names → raw.get? name = none := by
        intro name hnm
        rw [addRows_other num cfg names hnd _ raw _ hr name hnm, emptyRaw_get, if_neg hnm]
      unfold frame at h
      simp only [bind, Except.bind] at h
      cases hc : cycleIndex num names raw with
      | error e => rw [hc] at h; cases h
      | ok raw2 =>
        rw [hc] at h
        simp only at h
        cases hp : pick raw2 cfg with
        | error e => rw [hp] at h; cases h
        | ok picked =>
          rw [hp] at h
          simp only at h
          have hsp := pick_spec hp
          -- the cycle numbers
          have hci : raw2 = raw ∧ "cycle_index".toList ∈ names ∨
              "cycle_index".toList ∉ names ∧ ∃ l zs, raw.get? "cycle number".toList = some l ∧ mapE (cellInt num) l = .ok zs ∧
                raw2 = raw.set "cycle_index".toList (zs.map Cell.int) := by
            unfold cycleIndex at hc
            split at hc
            · rename_i hin; cases hc; exact .inl ⟨rfl, hin⟩
            · rename_i hin
              refine .inr ⟨hin, ?_⟩
              split at hc
              · cases hc
              · rename_i l hl
                simp only [bind, Except.bind] at hc
                cases hm : mapE (cellInt num) l with
                | error e => rw [hm] at hc; cases hc
                | ok zs => rw [hm] at hc; cases hc; exact ⟨l, zs, hl, hm, rfl⟩
          have hsame : ∀ name, name ≠ "cycle_index".toList → raw2.get? name = raw.get? name := by
            intro name hne
            rcases hci with ⟨e, _⟩ | ⟨_, l, zs, _, _, e⟩
            · rw [e]
            · rw [e, Dict.get?_set_ne _ _ hne]
          have hsame' : ∀ name, name ∈ names → raw2.get? name = raw.get? name := by
            intro name hin
            rcases hci with ⟨e, _⟩ | ⟨hni, l, zs, _, _, e⟩
            · rw [e]
            · rw [e, Dict.get?_set_ne _ _ (by rintro rfl; exact hni hin)]
          cases hcnum : raw2.get? "cycle number".toList with
          | none => rw [hcnum] at h; cases h
          | some lc =>
            rw [hcnum] at h
            simp only at h
            split at h
            swap
            · cases h
            rename_i hall
            cases h
            rw [List.all_eq_true] at hall
            have hcn' : "cycle number".toList ∈ names := by
              by_contra hx
              rw [hsame _ (by decide), hnocol _ hx] at hcnum
              cases hcnum
            obtain ⟨j0, hj0⟩ := List.mem_iff_getElem?.mp hcn'
            obtain ⟨lc', g1, g2⟩ := hcol j0 _ hj0
            have elc : lc' = lc := by
              rw [hsame _ (by decide), g1] at hcnum
              exact Option.some.inj hcnum
            subst elc
            have hlen0 := g2.length_eq
            -- columns have the length of the cycle numbers
            have hin : ∀ c ∈ cfg, ∃ l, ((picked.set "data_point".toList
                ((List.range lc'.length).map (fun i : Nat => Cell.int ((i : Int) + 1)))).get? c.beep = some l) ∧
                raw2.get? c.name = some l ∧ l.length = lc'.length := by
              intro c hcm
              obtain ⟨l, m1, m2, m3⟩ := get_of_pick hsp hbeep hcm
              have hne : c.beep ≠ "data_point".toList := fun e => hdp (e ▸ List.mem_map.mpr ⟨c, hcm, rfl⟩)
              have hg : (picked.set "data_point".toList
                ((List.range lc'.length).map (fun i : Nat => Cell.int ((i : Int) + 1)))).get? c.beep = some l := by
                rw [Dict.get?_set_ne _ _ hne]; exact m2
              refine ⟨l, hg, m3, ?_⟩
              have := hall _ (Dict.get?_some_mem hg)
              simpa using this
            have halign : ∀ (j : Nat) name, names[j]? = some name →
                name = "cycle number".toList ∨ (∃ c ∈ cfg, c.name = name) →
                data.filter (fun s => decide (j < (Text.splitC sep' s).length)) =
                  data.filter (fun s => decide (j0 < (Text.splitC sep' s).length)) := by
              intro j name hj hor
              have hlj : (data.filter (fun s => decide (j < (Text.splitC sep' s).length))).length = lc'.length := by
                obtain ⟨l, a1, a2⟩ := hcol j name hj
                rw [a2.length_eq]
                rcases hor with rfl | ⟨c, hcm, rfl⟩
                · rw [g1] at a1; cases a1; rfl
                · obtain ⟨l', _, b2, b3⟩ := hin c hcm
                  rw [hsame' _ (List.mem_of_getElem? hj), a1] at b2
                  cases b2
                  exact b3
              rw [← hlen0] at hlj
              rcases Nat.le_total j j0 with hle | hle
              · exact (filter_eq data _ _ (fun x _ hx => by simp at hx ⊢; omega) hlj.symm).symm
              · exact filter_eq data _ _ (fun x _ hx => by simp at hx ⊢; omega) hlj
            refine ⟨fun s => decide (j0 < (Text.splitC sep' s).length), ?_, ?_, ?_⟩
            · intro line hline fs hfs j name hj hor
              rw [fields_iff] at hfs
              have := halign j name hj hor
              have hm : line ∈ data.filter (fun s => decide (j < (Text.splitC sep' s).length)) ↔
                  line ∈ data.filter (fun s => decide (j0 < (Text.splitC sep' s).length)) := by rw [this]
              rw [List.mem_filter, List.mem_filter] at hm
              simp only [hline, true_and, decide_eq_true_eq] at hm
              rw [decide_eq_true_eq, ← hm, hfs]
            · intro c hcm
              obtain ⟨l, b1, b2, b3⟩ := hin c hcm
              refine ⟨l, b1, ?_⟩
              by_cases hcin : c.name ∈ names
              · left
                refine ⟨hcin, ?_⟩
                obtain ⟨j, hj⟩ := List.mem_iff_getElem?.mp hcin
                obtain ⟨l', a1, a2⟩ := hcol j _ hj
                rw [hsame' _ hcin, a1] at b2
                cases b2
                rw [halign j _ hj (.inr ⟨c, hcm, rfl⟩), colOf_mem hcfg hcm] at a2
                exact List.Forall₂.imp (fun line v hv => by
                  obtain ⟨x, x1, x2⟩ := hv
                  exact ⟨x, x1, convert_reads x2⟩) a2
              · right
                rcases hci with ⟨e, _⟩ | ⟨hni, l', zs, c1, c2, e⟩
                · rw [e, hnocol _ hcin] at b2; cases b2
                · have hname : c.name = "cycle_index".toList := by
                    by_contra hne
                    rw [hsame _ hne, hnocol _ hcin] at b2
                    cases b2
                  refine ⟨hname, hcin, ?_⟩
                  rw [hname, e, Dict.get?_set_self] at b2
                  cases b2
                  rw [g1] at c1
                  cases c1
                  rw [colOf_none hcn] at g2
                  have hz := mapE_forall c2
                  rw [List.forall₂_map_right_iff]
                  clear hlen0 b1 b3 hin hall halign g1 hcnum c2 e
                  generalize data.filter (fun s => decide (j0 < (Text.splitC sep' s).length)) = dd at g2
                  induction g2 generalizing zs with
                  | nil => cases hz; exact .nil
                  | @cons line v ls vs hv _ ih =>
                    cases hz with
                    | @cons _ z _ zs' z1 z2 =>
                      refine .cons ?_ (ih zs' z2)
                      obtain ⟨x, x1, x2⟩ := hv
                      cases x2
                      simp only [cellInt, toInt, bind, Except.bind] at z1
                      cases hx : num x with
                      | error e => rw [hx] at z1; cases z1
                      | ok o =>
                        rw [hx] at z1
                        cases o with
                        | none => cases z1
                        | some q => cases z1; exact ⟨x, q, _, x1, hx, trunc_whole q, rfl⟩
            · rw [Dict.get?_set_self, hlen0]

/-- C124 fails for a configured column that ends the header line: its name keeps the line end, and
the file cannot be read however complete it is. -/
theorem C124_last_column_violated (num : Str → Except Err (Option Rat)) (cfg : List Column) (path : Str)
    (lines : List Str) (hcfg : (cfg.map Column.name).Nodup) (hbeep : (cfg.map Column.beep).Nodup)
    (hdp : "data_point".toList ∉ cfg.map Column.beep) (hcn : "cycle number".toList ∉ cfg.map Column.name)
    (sep : Char) (hsep : Separated path sep) (k : Nat) (hk : Header lines k) (head : Str)
    (hhead : lines[k]? = some head) (front : List Str) (c : Column) (hc : c ∈ cfg)
    (hci : c.name ≠ "cycle_index".toList)
    (hn : Fields sep head (front ++ [c.name ++ ['\n']])) (hnd : (front ++ [c.name]).Nodup)
    (hnl : ∀ f ∈ front, '\n' ∉ f) (t : Dict Str (List Cell)) : fromFile num cfg path lines ≠ .ok t := by
  intro h
  rw [List.nodup_append] at hnd
  obtain ⟨n1, _, n3⟩ := hnd
  have hnd' : (front ++ [c.name ++ ['\n']]).Nodup := by
    rw [List.nodup_append]
    refine ⟨n1, by simp, ?_⟩
    intro a ha b hb e
    rw [List.mem_singleton] at hb
    subst hb
    subst e
    exact hnl _ ha (by simp)
  obtain ⟨P, _, h2, _⟩ := C124_rows_partial num cfg path lines t hcfg hbeep hdp hcn sep hsep k hk head hhead _ hn hnd' h
  obtain ⟨col, _, h3⟩ := h2 c hc
  rcases h3 with ⟨h4, _⟩ | ⟨h4, _⟩
  · rcases List.mem_append.mp h4 with h5 | h5
    · exact n3 _ h5 _ (List.mem_singleton.mpr rfl) rfl
    · rw [List.mem_singleton] at h5
      have := congrArg List.length h5
      simp at this
  · exact hci h4

theorem reads_convert {num : Str → Except Err (Option Rat)} {c : Column} {item : Str} {v : Cell}
    (h : Reads num c item v) : ∃ v, convert num (some c) item = .ok v := by
  unfold convert
  cases h with
  | int h1 h2 _ => simp only [h1, toInt, h2, bind, Except.bind]; exact ⟨_, rfl⟩
  | float h1 h2 => simp only [h1, h2, bind, Except.bind]; exact ⟨_, rfl⟩
  | nan h1 h2 => simp only [h1, h2, bind, Except.bind]; exact ⟨_, rfl⟩
  | text h1 => simp only [h1]; exact ⟨_, rfl⟩

theorem addRow_ok (num : Str → Except Err (Option Rat)) (cfg : List Column) (cs : List Str)
    (raw : Dict Str (List Cell)) (items : List Str) (hlen : items.length ≤ cs.length)
    (h : ∀ (j : Nat) name x, cs[j]? = some name → items[j]? = some x → ∃ v, convert num (colOf cfg name) x = .ok v) :
    ∃ raw', addRow num cfg cs raw items = .ok raw' := by
  induction cs generalizing raw items with
  | nil =>
    cases items with
    | nil => exact ⟨raw, by rw [addRow]⟩
    | cons x xs => simp at hlen
  | cons c cs ih =>
    cases items with
    | nil => exact ⟨raw, by rw [addRow]⟩
    | cons x xs =>
      obtain ⟨v, hv⟩ := h 0 c x rfl rfl
      rw [addRow, hv]
      simp only [bind, Except.bind]
      exact ih _ xs (by simpa using hlen) (fun j name y h1 h2 => h (j + 1) name y h1 h2)

theorem addRows_ok (num : Str → Except Err (Option Rat)) (cfg : List Column) (cs : List Str)
    (raw : Dict Str (List Cell)) (rows : List (List Str)) (hlen : ∀ r ∈ rows, r.length ≤ cs.length)
    (h : ∀ r ∈ rows, ∀ (j : Nat) name x, cs[j]? = some name → r[j]? = some x →
      ∃ v, convert num (colOf cfg name) x = .ok v) :
    ∃ raw', addRows num cfg cs raw rows = .ok raw' := by
  induction rows generalizing raw with
  | nil => exact ⟨raw, rfl⟩
  | cons r rs ih =>
    obtain ⟨raw1, h1⟩ := addRow_ok num cfg cs raw r (hlen r (List.mem_cons_self ..))
      (h r (List.mem_cons_self ..))
    rw [addRows, h1]
    simp only [bind, Except.bind]
    exact ih raw1 (fun r hr => hlen r (List.mem_cons_of_mem _ hr)) (fun r hr => h r (List.mem_cons_of_mem _ hr))

theorem mapE_ok {α β : Type} (f : α → Except Err β) (l : List α) (h : ∀ a ∈ l, ∃ b, f a = .ok b) :
    ∃ bs, mapE f l = .ok bs := by
  induction l with
  | nil => exact ⟨[], rfl⟩
  | cons a l ih =>
    obtain ⟨b, hb⟩ := h a (List.mem_cons_self ..)
    obtain ⟨bs, hbs⟩ := ih (fun a ha => h a (List.mem_cons_of_mem _ ha))
    exact ⟨b :: bs, by rw [mapE, hb]; simp only [bind, Except.bind]; rw [hbs]; rfl⟩

theorem pick_ok (raw : Dict Str (List Cell)) (cfg : List Column) (n : Nat)
    (h : ∀ c ∈ cfg, ∃ l, raw.get? c.name = some l ∧ l.length = n) :
    ∃ data, pick raw cfg = .ok data ∧ ∀ d ∈ data, d.2.length = n := by
  induction cfg with
  | nil => exact ⟨[], rfl, by simp⟩
  | cons c cs ih =>
    obtain ⟨l, h1, h2⟩ := h c (List.mem_cons_self ..)
    obtain ⟨data, h3, h4⟩ := ih (fun c hc => h c (List.mem_cons_of_mem _ hc))
    refine ⟨(c.beep, l) :: data, ?_, ?_⟩
    · rw [pick, h1]
      simp only [bind, Except.bind]
      rw [h3]
      rfl
    · intro d hd
      rcases List.mem_cons.mp hd with rfl | hd
      · exact h2
      · exact h4 d hd

theorem dict_mem_set {d : Dict Str (List Cell)} {k : Str} {v : List Cell} {x : Str × List Cell}
    (h : x ∈ d.set k v) : x = (k, v) ∨ x ∈ d := by
  induction d with
  | nil => rw [Dict.set] at h; exact .inl (List.mem_singleton.mp h)
  | cons a l ih =>
    obtain ⟨k', v'⟩ := a
    rw [Dict.set] at h
    split at h
    · rename_i e
      rcases List.mem_cons.mp h with h | h
      · subst e; exact .inl h
      · exact .inr (List.mem_cons_of_mem _ h)
    · rcases List.mem_cons.mp h with h | h
      · exact .inr (h ▸ List.mem_cons_self ..)
      · rcases ih h with h | h
        · exact .inl h
        · exact .inr (List.mem_cons_of_mem _ h)

/-- C124, reading: a file with a header within the lines searched before the last, all configured
columns and the cycle number in it, and as many readable fields in every data line, is read. -/
theorem C124_read (num : Str → Except Err (Option Rat)) (cfg : List Column) (path : Str) (lines : List Str)
    (hcfg : (cfg.map Column.name).Nodup) (hcn : "cycle number".toList ∉ cfg.map Column.name)
    (sep : Char) (hsep : Separated path sep) (k : Nat) (hk : Header lines k) (hk200 : k + 1 < 200) (head : Str)
    (hhead : lines[k]? = some head) (names : List Str) (hn : Fields sep head names) (hnd : names.Nodup)
    (hall : ∀ c ∈ cfg, c.name ∈ names ∨ c.name = "cycle_index".toList) (hcyc : "cycle number".toList ∈ names)
    (hrow : ∀ line ∈ lines.drop (k + 1), ∀ fs, Fields sep line fs → fs.length = names.length)
    (hread : ∀ line ∈ lines.drop (k + 1), ∀ c ∈ cfg, ∀ x, Under sep names line c.name x → ∃ v, Reads num c x v)
    (hnum : ∀ line ∈ lines.drop (k + 1), ∀ x, Under sep names line "cycle number".toList x → ∃ q, num x = .ok (some q)) :
    ∃ t, fromFile num cfg path lines = .ok t := by
  rw [fields_iff] at hn
  obtain ⟨enc, hf⟩ := (getFileType_iff path lines 200 sep (k + 1) (k + 2)).mpr ⟨hsep, k, hk, rfl, rfl, hk200⟩
  unfold fromFile
  rw [hf]
  simp only [bind, Except.bind, Nat.add_sub_cancel, hhead, Option.getD_some, hn]
  generalize lines.drop (k + 1) = data at hrow hread hnum ⊢
  have hconv : ∀ line ∈ data, ∀ (j : Nat) name x, names[j]? = some name → (Text.splitC sep line)[j]? = some x →
      ∃ v, convert num (colOf cfg name) x = .ok v := by
    intro line hl j name x h1 h2
    by_cases hname : name ∈ cfg.map Column.name
    · obtain ⟨c, hc, rfl⟩ := List.mem_map.mp hname
      rw [colOf_mem hcfg hc]
      obtain ⟨v, hv⟩ := hread line hl c hc x ⟨_, j, splitC_fields sep line, h1, h2⟩
      exact reads_convert hv
    · rw [colOf_none hname]
      exact ⟨_, rfl⟩
  obtain ⟨raw, hr⟩ := addRows_ok num cfg names (emptyRaw names) (data.map (Text.splitC sep))
    (by
      intro r hr
      obtain ⟨line, hl, rfl⟩ := List.mem_map.mp hr
      exact (hrow line hl _ (splitC_fields sep line)).le)
    (by
      intro r hr
      obtain ⟨line, hl, rfl⟩ := List.mem_map.mp hr
      exact hconv line hl)
  rw [hr]
  simp only
  have hcol : ∀ (j : Nat) name, names[j]? = some name → ∃ l, raw.get? name = some l ∧
      List.Forall₂ (fun line v => ∃ x, Under sep names line name x ∧ convert num (colOf cfg name) x = .ok v) data l := by
    intro j name hj
    obtain ⟨l, e1, e2⟩ := addRows_get num cfg names hnd _ raw _ hr j name hj []
      (by rw [emptyRaw_get, if_pos (List.mem_of_getElem? hj)])
    refine ⟨l, by simpa using e1, ?_⟩
    have e3 := lines_forall hj data l e2
    rwa [List.filter_eq_self.mpr] at e3
    intro line hl
    rw [decide_eq_true_eq, hrow line hl _ (splitC_fields sep line)]
    exact (List.getElem?_eq_some_iff.mp hj).1
  obtain ⟨j0, hj0⟩ := List.mem_iff_getElem?.mp hcyc
  obtain ⟨lc, g1, g2⟩ := hcol j0 _ hj0
  rw [colOf_none hcn] at g2
  obtain ⟨zs, hzs⟩ : ∃ zs, mapE (cellInt num) lc = .ok zs := by
    apply mapE_ok
    intro a ha
    obtain ⟨i, hi⟩ := List.mem_iff_getElem?.mp ha
    obtain ⟨hi', e⟩ := List.getElem?_eq_some_iff.mp hi
    have hid : i < data.length := by rw [g2.length_eq]; exact hi'
    obtain ⟨x, x1, x2⟩ := g2.get (i := i) hid hi'
    simp only [List.get_eq_getElem] at x1 x2
    obtain ⟨q, hq⟩ := hnum _ (List.getElem_mem hid) x x1
    rw [e] at x2
    cases x2
    refine ⟨Units.trunc q, ?_⟩
    simp only [cellInt, toInt, hq, bind, Except.bind]
    rfl
  obtain ⟨raw2, hc2, hg2, hg3, hg4⟩ : ∃ raw2, cycleIndex num names raw = .ok raw2 ∧
      (∀ name ∈ names, raw2.get? name = raw.get? name) ∧
      (∃ l, raw2.get? "cycle_index".toList = some l ∧ l.length = lc.length) ∧
      raw2.get? "cycle number".toList = some lc := by
    unfold cycleIndex
    by_cases hin : "cycle_index".toList ∈ names
    · rw [if_pos hin]
      refine ⟨raw, rfl, fun _ _ => rfl, ?_, g1⟩
      obtain ⟨j, hj⟩ := List.mem_iff_getElem?.mp hin
      obtain ⟨l, a1, a2⟩ := hcol j _ hj
      exact ⟨l, a1, by rw [← a2.length_eq, g2.length_eq]⟩
    · rw [if_neg hin, g1]
      simp only [bind, Except.bind]
      rw [hzs]
      refine ⟨_, rfl, ?_, ⟨zs.map Cell.int, Dict.get?_set_self _ _ _, ?_⟩, ?_⟩
      · intro name hnm
        rw [Dict.get?_set_ne _ _ (by rintro rfl; exact hin hnm)]
      · rw [List.length_map, (mapE_forall hzs).length_eq]
      · rw [Dict.get?_set_ne _ _ (by decide)]
        exact g1
  obtain ⟨picked, hp, hlen⟩ := pick_ok raw2 cfg lc.length (by
    intro c hc
    rcases hall c hc with h1 | h1
    · obtain ⟨j, hj⟩ := List.mem_iff_getElem?.mp h1
      obtain ⟨l, a1, a2⟩ := hcol j _ hj
      exact ⟨l, by rw [hg2 _ h1, a1], by rw [← a2.length_eq, g2.length_eq]⟩
    · rw [h1]; exact hg3)
  unfold frame
  rw [hc2]
  simp only [bind, Except.bind]
  rw [hp]
  simp only [hg4]
  rw [if_pos]
  · exact ⟨_, rfl⟩
  · rw [List.all_eq_true]
    intro d hd
    rw [decide_eq_true_eq]
    rcases dict_mem_set hd with rfl | hd
    · simp
    · exact hlen d hd

/-- a small configuration, with a scaled column and the cycle index -/
def exCfg : List Column :=
  [⟨"cycle_index".toList, "cycle_index".toList, .int, 1⟩, ⟨"Ecell/V".toList, "voltage".toList, .float, 1⟩,
   ⟨"I/mA".toList, "current".toList, .float, 1 / 1000⟩]

/-- an export with one line before the header -/
def exLines : List Str :=
  ["BT-Lab\n".toList, "Ecell/V;I/mA;cycle number;x\n".toList, "3;500;1;9\n".toList, "4;250;2;9\n".toList]

/-- numbers of one to three digits -/
def exNum (s : Str) : Except Err (Option Rat) :=
  if s.all Char.isDigit && !s.isEmpty then .ok (some ((s.foldl (fun a c => 10 * a + (c.toNat - 48)) 0 : Nat) : Rat))
  else .error .valueError

/-- the example is read: voltages, currents in ampere, cycle indices and data points -/
example : fromFile exNum exCfg "a/b.csv".toList exLines =
    .ok [("cycle_index".toList, [.int 1, .int 2]), ("voltage".toList, [.num (some 3), .num (some 4)]),
      ("current".toList, [.num (some (1 / 2)), .num (some (1 / 4))]), ("data_point".toList, [.int 1, .int 2])] := by
  decide +kernel

/-- the hypotheses of the theorems on the example -/
example : (exCfg.map Column.name).Nodup ∧ (exCfg.map Column.beep).Nodup ∧
    "data_point".toList ∉ exCfg.map Column.beep ∧ "cycle number".toList ∉ exCfg.map Column.name := by decide +kernel

example : Separated "a/b.csv".toList ';' :=
  .csv (dir := "a/".toList) (name := "b".toList) (.inr ⟨"a".toList, rfl⟩) (by decide) ⟨'b', by decide, by decide⟩

example : Header exLines 1 ∧ Fields ';' "Ecell/V;I/mA;cycle number;x\n".toList
    ["Ecell/V".toList, "I/mA".toList, "cycle number".toList, "x\n".toList] := by
  refine ⟨(header_cons _ _ _).mpr (.inr ⟨0, rfl, ?_, (header_cons _ _ _).mpr (.inl ⟨rfl, ?_⟩)⟩), ?_⟩
  · rw [← isHeader_iff]; decide +kernel
  · rw [← isHeader_iff]; decide +kernel
  · rw [fields_iff]; decide +kernel

/-- the same file with a configured column at the end of the header is not read -/
example : fromFile exNum exCfg "a/b.csv".toList
    ["Ecell/V;cycle number;I/mA\n".toList, "3;1;500\n".toList] = .error .keyError := by decide +kernel

/-- a header on the last of three searched lines is not found -/
example : getFileType "b.csv".toList ["1\n".toList, "2\n".toList, "Ecell/V;x\n".toList] 3 = .error .keyError := by
  decide +kernel

end Beep.Props.BiologicFile
