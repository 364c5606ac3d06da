import Verif.Proof.RawUnits
import Verif.Props.Parsers
/-
C148: raw columns are published in the units of beep.
-/
namespace Beep.Props.RawUnits
open Beep Beep.Casts Beep.RawUnits Beep.Spec.Casts Beep.Spec.RawUnits

/-! ### Neware -/

/-- A column of a Neware file is published under its name, converted to seconds, amperes, ampere hours
and watt hours, with gaps of the resistance filled, and rounded to its number type. Missing: times of
steps with days (see the next theorem but one). -/
theorem C148_neware_units_partial {f g : Frame} {n b : String} {xs : List Cell} (h : newareData f = .ok g) (hc : (n, xs) ∈ f)
    (hn : n ≠ "test_time") (hb : Published neware n b) :
    ∃ ys zs, (b, zs) ∈ g ∧ InUnits n xs ys ∧ StoredAs newareKinds n ys zs := by
  obtain ⟨k, ts, h1, h2, h3⟩ := newareData_ok h
  obtain ⟨⟨n', ys⟩, hq, e, hu⟩ := forall₂_mem_left (convertAll_units h1) _ hc
  simp only at e hu
  subst e
  obtain ⟨⟨b', zs⟩, hq', hp, hs⟩ := forall₂_mem_left (newareTable_ok h3) _ (assign_other hq hn)
  have e : b' = b := published_unique (by decide +kernel) hp hb
  subst e
  exact ⟨ys, zs, hq', hu, hs⟩

/-- The times of a Neware file start at 0; each record adds the time that has passed since the last one
in its step, and nothing when the clock of the step starts again. -/
theorem C148_neware_test_time {f g : Frame} {xs : List Cell} (h : newareData f = .ok g) (hd : (names f).Nodup)
    (hc : ("Time(h:min:s.ms)", xs) ∈ f) :
    ∃ ts us : List Rat, ("test_time", us.map Cell.num) ∈ g ∧ us.length = xs.length ∧ (∀ u, us[0]? = some u → u = 0) ∧
      List.Forall₂ (fun x t => ∃ s, x = Cell.text s ∧ ∀ t', Clock s.toList t' → t = t') xs ts ∧
      ∀ (i : Nat) (s t u v : Rat), ts[i]? = some s → ts[i + 1]? = some t → us[i]? = some u → us[i + 1]? = some v →
        (s ≤ t → v - u = t - s) ∧ (t ≤ s → v = u) := by
  obtain ⟨k, cells, h1, h2, h3⟩ := newareData_ok h
  have hu := convertAll_units h1
  have hkn : (names k).Nodup := by
    have : names k = names f := names_eq hu (fun _ _ hh => hh.1)
    rw [this]; exact hd
  obtain ⟨⟨n', ys⟩, hq, e, hin⟩ := forall₂_mem_left hu _ hc
  simp only at e hin
  subst e
  have e : cells = ys := unique_column hkn (column_mem h2) hq
  subst e
  have hts : List.Forall₂ (fun x t => ∃ s, x = Cell.text s ∧ ∀ t', Clock s.toList t' → t = t') xs (numbers cells) := by
    apply numbers_of
    exact (hin.1 rfl).imp (fun x y ⟨s, hs, t, ht, hcl⟩ => ⟨t, ht, s, hs, hcl⟩)
  refine ⟨numbers cells, Parsers.testTime (numbers cells), ?_, ?_, ?_, hts, ?_⟩
  · obtain ⟨⟨b', zs⟩, hq', hp, hs⟩ := forall₂_mem_left (newareTable_ok h3) _ (assign_self _ _ k)
    have e : b' = "test_time" := published_unique (by decide +kernel) hp (.inl (show ("test_time", "test_time") ∈ neware by decide +kernel))
    simp only at hs
    rw [asRead_nums (hs.1 _ neware_asRead), e] at hq'
    exact hq'
  · rw [hts.length_eq]
    cases numbers cells with
    | nil => rfl
    | cons t ts => exact (Props.Parsers.C42_starts t ts).1
  · intro u hu
    cases hcs : numbers cells with
    | nil => rw [hcs] at hu; cases hu
    | cons t ts =>
      rw [hcs, (Props.Parsers.C42_starts t ts).2] at hu
      cases hu; rfl
  · intro i s t u v hs ht hu hv
    exact Props.Parsers.C42_increment (numbers cells) i s t u v hs ht hu hv

/-- The days of a step time `d:h:min:s` are dropped without notice. -/
theorem C148_days_violated {f g : Frame} {xs : List Cell} (h : newareData f = .ok g)
    (hc : ("Time(h:min:s.ms)", xs) ∈ f) {i : Nat} {txt : String} {d a b c : Str} {D H M S : Rat} (hi : xs[i]? = some (.text txt))
    (ht : txt.toList = d ++ ':' :: (a ++ ':' :: (b ++ ':' :: c))) (hd : Numeral d D) (ha : Numeral a H) (hb : Numeral b M) (hs : Numeral c S) :
    ∃ zs z, ("step_time", zs) ∈ g ∧ zs[i]? = some z ∧ Stored b32 (.num (3600 * H + 60 * M + S)) z := by
  obtain ⟨k, cells, h1, h2, h3⟩ := newareData_ok h
  obtain ⟨⟨n', ys⟩, hq, e, hcv, _⟩ := forall₂_mem_left (convertAll_ok (by decide +kernel) h1) _ hc
  simp only at e hcv
  subst e
  have hmap := mapCells_ok (hcv (mapCells timeCell) (by unfold conversions; simp))
  obtain ⟨⟨b', zs⟩, hq', hp, hst⟩ := forall₂_mem_left (newareTable_ok h3) _ (assign_other hq (show "Time(h:min:s.ms)" ≠ "test_time" by decide +kernel))
  have e : b' = "step_time" := published_unique (by decide +kernel) hp (.inl (show ("Time(h:min:s.ms)", "step_time") ∈ neware by decide +kernel))
  subst e
  have hkind : HasKind newareKinds "Time(h:min:s.ms)" b32 :=
    ⟨["Time(h:min:s.ms)", "Current(mA)", "Voltage(V)", "DCIR(O)", "Temperature(C)"], by decide +kernel, by decide +kernel⟩
  obtain ⟨hl1, hg1⟩ := List.forall₂_iff_get.mp hmap
  obtain ⟨hl2, hg2⟩ := List.forall₂_iff_get.mp (hst.1 _ hkind)
  obtain ⟨hix, hxi⟩ := List.getElem?_eq_some_iff.mp hi
  have hiy : i < ys.length := hl1 ▸ hix
  have hiz : i < zs.length := hl2 ▸ hiy
  refine ⟨zs, zs[i], hq', List.getElem?_eq_getElem hiz, ?_⟩
  have s1 := hg1 i hix hiy
  have s2 := hg2 i hiy hiz
  simp only [List.get_eq_getElem] at s1 s2
  have hstep : stepTime txt.toList = .ok (3600 * H + 60 * M + S) :=
    stepTime_fields [d] a b c H M S ha hb hs _ (by
      rw [ht, Text.splitC_append ':' d _ (numeral_colon hd), clock_split (numeral_colon ha) (numeral_colon hb) (numeral_colon hs)]; rfl)
  rw [hxi, timeCell, hstep] at s1
  simp only [Except.ok.injEq] at s1
  rw [← s1] at s2
  exact s2

/-- a Neware table of three records -/
def sample : Frame :=
  [("Cycle ID", [.num 1, .num 1, .num 1]), ("Step ID", [.num 1, .num 1, .num 2]), ("Record ID", [.num 1, .num 2, .num 3]),
   ("Time(h:min:s.ms)", [.text "0:00:00.000", .text "0:01:30.500", .text "1:0:00:02"]), ("Voltage(V)", [.num 3, .num 3, .num 3]),
   ("Current(mA)", [.num 500, .num 250, .num (-1000)]), ("Temperature(C)", [.nan, .nan, .nan]),
   ("Capacitance_Chg(mAh)", [.num 0, .num 5, .num 0]), ("Capacitance_DChg(mAh)", [.num 0, .num 0, .num 10]),
   ("Engy_Chg(mWh)", [.num 0, .num 5, .num 0]), ("Engy_DChg(mWh)", [.num 0, .num 0, .num 10]),
   ("DCIR(O)", [.text "\t-", .num 2, .text "\t-"])]

/-- the cells of some columns of a table that is read -/
def cells (r : Except Err Frame) (ns : List String) : Option (List (List Cell)) :=
  match r with
  | .ok g => some (ns.filterMap (fun n => (g.find? (fun p => decide (p.1 = n))).map Prod.snd))
  | .error _ => none

example : cells (newareData sample) ["current", "step_time", "test_time", "internal_resistance"] =
    some [[.num (1 / 2), .num (1 / 4), .num (-1)], [.num 0, .num (181 / 2), .num 2], [.num 0, .num (181 / 2), .num (181 / 2)],
      [.num 2, .num 2, .num 2]] := by decide +kernel

example : Clock "0:01:30.500".toList (181 / 2) :=
  ⟨"0".toList, "01".toList, "30.500".toList, 0, 1, 61 / 2, rfl,
    .inl ⟨0, ⟨by decide, by decide, rfl⟩, rfl⟩, .inl ⟨1, ⟨by decide, by decide, rfl⟩, by norm_num⟩,
    .inr ⟨"30".toList, "500".toList, 30, 500, rfl, ⟨by decide, by decide, rfl⟩, ⟨by decide, by decide, rfl⟩, by rw [show "500".toList.length = 3 by decide]; norm_num⟩,
    by norm_num⟩

/-! ### Novonix -/

/-- A Novonix table keeps its columns, in order, each under its published name and with its numbers. Missing:
the conversion of hours to seconds. -/
theorem C148_novonix_partial {f g : Frame} (h : novonixTable f = .ok g) :
    List.Forall₂ (fun a b => Published novonix a.1 b.1 ∧ StoredAs novonixKinds a.1 a.2 b.2) f g :=
  novonixTable_ok h

theorem hours_kind : ∀ n ∈ hours, HasKind novonixKinds n .asRead := by
  intro n hn
  refine ⟨["Run Time (h)", "Step Time (h)", "Current (A)", "Potential (V)", "Capacity (Ah)", "Energy (Wh)", "dIdt (V/h)", "dVdt (I/h)",
     "Temperature (°C)", "Circuit Temperature (°C)"], by decide +kernel, ?_⟩
  exact (by decide +kernel : ∀ n ∈ hours, n ∈ ["Run Time (h)", "Step Time (h)", "Current (A)", "Potential (V)", "Capacity (Ah)", "Energy (Wh)",
    "dIdt (V/h)", "dVdt (I/h)", "Temperature (°C)", "Circuit Temperature (°C)"]) n hn

/-- The times of every Novonix file are published as they are, in hours: as soon as one of them is not 0
they are not the seconds of other files. -/
theorem C148_hours_violated {f g : Frame} (h : novonixTable f = .ok g) {n b : String} {xs : List Cell} (hn : n ∈ hours) (hc : (n, xs) ∈ f)
    (hb : Published novonix n b) {q : Rat} (hq : Cell.num q ∈ xs) (h0 : q ≠ 0) : (b, xs) ∈ g ∧ ¬Seconds xs xs := by
  obtain ⟨⟨b', ys⟩, hm, hp, hs⟩ := forall₂_mem_left (novonixTable_ok h) _ hc
  simp only at hp hs
  have e : b' = b := published_unique (by decide +kernel) hp hb
  subst e
  rw [asRead_same (hs.1 _ (hours_kind n hn))] at hm
  refine ⟨hm, ?_⟩
  intro hsec
  have := List.forall₂_same.mp hsec _ hq q rfl
  simp only [Cell.num.injEq] at this
  exact h0 (by linarith)

/-- a file without one of the two columns of temperatures is refused -/
theorem C148_novonix_temperature {f : Frame} {n : String} (hn : n ∈ ["Temperature (°C)", "Circuit Temperature (°C)"])
    (hf : n ∉ names f) : ∃ e, novonixTable f = .error e := by
  cases h : novonixTable f with
  | error e => exact ⟨e, rfl⟩
  | ok g =>
    exfalso
    unfold novonixTable at h
    split at h
    · cases h
    · next g1 h1 =>
      split at h
      · cases h
      · next k hk =>
        unfold astype at hk
        split at hk
        · next hall =>
          rw [List.all_eq_true] at hall
          have hin : (n, DType.float64) ∈ novonixHeat.map (fun p => (p.1, DType.float64)) :=
            (by decide +kernel : ∀ n ∈ ["Temperature (°C)", "Circuit Temperature (°C)"],
              (n, DType.float64) ∈ novonixHeat.map (fun p => (p.1, DType.float64))) n hn
          have hm := List.contains_iff_mem.mp (hall _ hin)
          obtain ⟨p, hp, e⟩ := List.mem_map.mp hm
          obtain ⟨p', hp', e', _⟩ := forall₂_mem_right (rename_forall novonixNames g1) p hp
          rw [castAvailable_eq] at h1
          have s1 := castAll_ok (by exact (List.filter_sublist.map _).nodup (by decide +kernel)) h1
          obtain ⟨q, hq, eq, _⟩ := forall₂_mem_right s1 p' hp'
          have hkey : ∀ m, newName novonixNames m = n → m = n := by
            intro m hm
            by_cases hmem : m ∈ novonixNames.map Prod.fst
            · exfalso
              have := (novonix_targets m hmem).1
              rw [hm] at this
              exact this ((by decide +kernel : ∀ n ∈ ["Temperature (°C)", "Circuit Temperature (°C)"], n ∈ novonixHeat.map Prod.fst) n hn)
            · rw [newName_other hmem] at hm; exact hm
          have e3 : q.1 = n := by rw [← eq]; exact hkey _ (e'.symm.trans e)
          exact hf (by rw [← e3]; exact List.mem_map_of_mem (f := Prod.fst) hq)
        · cases hk

example : cells (novonixTable [("Date and Time", [.text "2021-01-01 10:30:00 AM"]), ("Cycle Number", [.num 3]), ("Run Time (h)", [.num (3 / 2)]),
    ("Temperature (°C)", [.num 25]), ("Circuit Temperature (°C)", [.num 26]), ("Note", [.text "x"])])
    ["date_time", "cycle_index", "test_time", "temperature", "circuit_temperature", "Note"] =
    some [[.text "2021-01-01 10:30:00 AM"], [.num 3], [.num (3 / 2)], [.num 25], [.num 26], [.text "x"]] := by decide +kernel

end Beep.Props.RawUnits
