import Verif.Proof.RunParameters
/-
C119 structuring parameters of a run, C120 where its diagnostics begin.
-/
namespace Beep.Props.RunParameters
open Beep Beep.RunParameters Beep.Spec.RunParameters Beep.Proof.RunParameters
open Beep.Spec.Ingest (RunFile BelongsTo)

/-! ### C119 -/

/-- C119: the structuring parameters of a run with a row in the parameter file of its project.  The nominal
capacity is that of the row; the voltage range spans all runs of the file; what the file does not have is
what was passed.  Diagnostics are reported exactly for runs of the type HPPC+RPT.
Missing for the whole property: projects whose name begins another's (C94), and `C119_float_violated`. -/
theorem C119_run_partial (path project : Str) (n : Nat) (h : RunFile path project n)
    (pre post : List (Str × List Row)) (name : Str) (before after : List Row) (r : Row)
    (hf : BelongsTo name project) (ho : ∀ g ∈ pre ++ post, ¬ project <+: g.1)
    (hb : ∀ x ∈ before, x.seq ≠ n) (hr : r.seq = n) (d : Raw) (a p : Params)
    (hok : determine (some (pre ++ (name, before ++ r :: after) :: post)) path d a = .ok p) :
    p.resolution = a.resolution ∧ p.fullFastCharge = a.fullFastCharge ∧
    (∀ c, In r "capacity_nominal" c → p.nominal = c) ∧
    (¬ HasColumn r "capacity_nominal" → p.nominal = a.nominal) ∧
    (HasColumn r "discharge_cutoff_voltage" ∧ HasColumn r "charge_cutoff_voltage" →
      ∃ lo hi, p.vRange = some (lo, hi) ∧
        Least (numbers (before ++ r :: after) "discharge_cutoff_voltage") lo ∧
        Greatest (numbers (before ++ r :: after) "charge_cutoff_voltage") hi) ∧
    (¬ (HasColumn r "discharge_cutoff_voltage" ∧ HasColumn r "charge_cutoff_voltage") → p.vRange = a.vRange) ∧
    (p.diagnostic ≠ none ↔ HppcRpt r) ∧
    (∀ v, p.diagnostic = some v → In r "diagnostic_parameter_set" v.parameterSet ∧
      v.cycleType = ["reset", "hppc", "rpt_0.2C", "rpt_1C", "rpt_2C"] ∧ v.length = 5) := by
  obtain ⟨more, e⟩ := lookup_first path project n h pre post name before after r hf ho hb hr
  unfold determine at hok
  simp only [e] at hok
  obtain ⟨d1, d2, d3, d4⟩ := diagnostics_eq d r
  have hcols : hasAll r ["discharge_cutoff_voltage", "charge_cutoff_voltage"] = true ↔
      HasColumn r "discharge_cutoff_voltage" ∧ HasColumn r "charge_cutoff_voltage" := by
    rw [hasAll_iff]; simp
  cases hd : diagnostics d r with
  | error err => rw [hd] at hok; cases hok
  | ok diag =>
    rw [hd] at hok
    cases hok
    refine ⟨rfl, rfl, ?_, ?_, ?_, ?_, ?_, ?_⟩
    · intro c hc
      unfold In at hc
      simp only [hc, Option.getD_some]
    · intro hc
      have : Dict.get? r.vals "capacity_nominal" = none := by
        rw [Option.eq_none_iff_forall_ne_some]
        exact fun c h => hc ⟨c, h⟩
      simp only [this, Option.getD_none]
    · intro hc
      refine ⟨_, _, by simp only [if_pos (hcols.mpr hc)]; rfl, ?_, ?_⟩
      · rw [column_eq]; exact least_min _
      · rw [column_eq]; exact greatest_max _
    · intro hc
      simp only [if_neg (fun h => hc (hcols.mp h))]
    · by_cases hh : HppcRpt r
      · refine ⟨fun _ => hh, fun _ => ?_⟩
        by_cases hs : ∃ start, In r "diagnostic_start_cycle" (.int start)
        · obtain ⟨start, hs⟩ := hs
          by_cases hp : HasColumn r "diagnostic_parameter_set"
          · obtain ⟨set, hp⟩ := hp
            rw [d2 start set hh hs hp] at hd
            cases hd; simp
          · rw [d4 start hh hs hp] at hd; cases hd
        · rw [d3 hh hs] at hd; cases hd
      · rw [d1 hh] at hd
        cases hd
        exact ⟨fun h => absurd rfl h, fun h => absurd h hh⟩
    · intro v hv
      simp only at hv
      by_cases hh : HppcRpt r
      · by_cases hs : ∃ start, In r "diagnostic_start_cycle" (.int start)
        · obtain ⟨start, hs⟩ := hs
          by_cases hp : HasColumn r "diagnostic_parameter_set"
          · obtain ⟨set, hp⟩ := hp
            rw [d2 start set hh hs hp] at hd
            cases hd; cases hv
            exact ⟨hp, rfl, rfl⟩
          · rw [d4 start hh hs hp] at hd; cases hd
        · rw [d3 hh hs] at hd; cases hd
      · rw [d1 hh] at hd
        cases hd; cases hv

/-- C119: the parameters can be determined for every run without diagnostics of the type HPPC+RPT, and for
those with them if the columns of starts and of parameter sets are there and the starts are integers -/
theorem C119_total_partial (path project : Str) (n : Nat) (h : RunFile path project n)
    (pre post : List (Str × List Row)) (name : Str) (before after : List Row) (r : Row)
    (hf : BelongsTo name project) (ho : ∀ g ∈ pre ++ post, ¬ project <+: g.1)
    (hb : ∀ x ∈ before, x.seq ≠ n) (hr : r.seq = n) (d : Raw) (a : Params)
    (hd : HppcRpt r → (∃ start, In r "diagnostic_start_cycle" (.int start)) ∧
      HasColumn r "diagnostic_parameter_set") :
    ∃ p, determine (some (pre ++ (name, before ++ r :: after) :: post)) path d a = .ok p := by
  obtain ⟨more, e⟩ := lookup_first path project n h pre post name before after r hf ho hb hr
  obtain ⟨d1, d2, d3, d4⟩ := diagnostics_eq d r
  unfold determine
  simp only [e]
  by_cases hh : HppcRpt r
  · obtain ⟨⟨start, hs⟩, set, hp⟩ := hd hh
    rw [d2 start set hh hs hp]
    exact ⟨_, rfl⟩
  · rw [d1 hh]
    exact ⟨_, rfl⟩

/-- C119: without a parameter file or without a row for the run, everything is as passed and there are no
diagnostics.  A directory that does not exist raises. -/
theorem C119_none_partial (path project : Str) (n : Nat) (h : RunFile path project n)
    (dir : List (Str × List Row)) (d : Raw) (a : Params)
    (hn : (∀ g ∈ dir, ¬ project <+: g.1) ∨
      ∃ (pre : List (Str × List Row)) (f : Str × List Row) (post : List (Str × List Row)), dir = pre ++ f :: post ∧ BelongsTo f.1 project ∧ (∀ g ∈ pre ++ post, ¬ project <+: g.1) ∧
        ∀ r ∈ f.2, r.seq ≠ (n : Int)) :
    determine (some dir) path d a = .ok { a with diagnostic := none } ∧
    determine none path d a = .error .fileNotFound := by
  refine ⟨?_, rfl⟩
  have hl : Ingest.lookup Row.seq dir path = .ok none := by
    rcases hn with ho | ⟨pre, f, post, rfl, hf, ho, hs⟩
    · obtain ⟨ds, rest, e, _⟩ := Proof.Ingest.projectSequence_run path project n h
      have hg : Ingest.globPrefix project dir = [] := by
        rw [Ingest.globPrefix, List.filter_eq_nil_iff]
        intro g hg hh
        simp only [Bool.and_eq_true] at hh
        exact ho g hg (List.isPrefixOf_iff_prefix.1 hh.1)
      rw [Ingest.lookup, e]
      simp only [hg]
    · have hdot : '.' ∉ project := by obtain ⟨_, _, _, _, _, _, _, _, _, _, h⟩ := h; exact h
      have hp : project <+: f.1 := by obtain ⟨_, rest, e⟩ := hf; exact ⟨_, e.symm⟩
      rw [Props.Ingest.lookup_single Row.seq path project n h _ f
        (Props.Ingest.glob_single project pre post _ hp (Props.Ingest.belongs_head _ _ hf hdot) ho), if_pos]
      rw [List.isEmpty_iff, List.filter_eq_nil_iff]
      intro r hr
      simpa using hs r hr
  unfold determine
  simp only [hl]

/-- C119 fails for a run with diagnostics when the column of their starts holds floats, as it does as soon as
a run of the project has no start: a `TypeError` -/
theorem C119_float_violated (path project : Str) (n : Nat) (h : RunFile path project n)
    (pre post : List (Str × List Row)) (name : Str) (before after : List Row) (r : Row)
    (hf : BelongsTo name project) (ho : ∀ g ∈ pre ++ post, ¬ project <+: g.1)
    (hb : ∀ x ∈ before, x.seq ≠ n) (hr : r.seq = n) (d : Raw) (a : Params) (hh : HppcRpt r) (v : Option Rat)
    (hs : In r "diagnostic_start_cycle" (.num v)) :
    determine (some (pre ++ (name, before ++ r :: after) :: post)) path d a = .error .typeError := by
  obtain ⟨more, e⟩ := lookup_first path project n h pre post name before after r hf ho hb hr
  obtain ⟨d1, d2, d3, d4⟩ := diagnostics_eq d r
  unfold determine
  simp only [e]
  rw [d3 hh]
  rintro ⟨start, hs'⟩
  unfold In at hs hs'
  rw [hs] at hs'
  cases hs'

theorem same_iff (a b : Cell) : a.same b = true ↔ Equals a b := by
  unfold Equals
  cases a with
  | text s =>
    cases b with
    | text t => simp [Cell.same] <;> exact eq_comm
    | int n => simp [Cell.same, Cell.value]
    | num v => simp [Cell.same, Cell.value]
  | int n =>
    cases b with
    | text t => simp [Cell.same, Cell.value]
    | int m => simp [Cell.same, Cell.value]
    | num v => cases v <;> simp [Cell.same, Cell.value] <;> exact eq_comm
  | num u =>
    cases b with
    | text t => cases u <;> simp [Cell.same, Cell.value]
    | int m => cases u <;> simp [Cell.same, Cell.value]
    | num v => cases u <;> cases v <;> simp [Cell.same, Cell.value] <;> exact eq_comm

/-- C119: the voltage limits of the diagnostics are those of the first row of the project's file with the
parameter set, and 2.7 V and 4.2 V for a project without a file -/
theorem C119_limits_partial (project : Str) (pre post : List (Str × List (Dict String Cell))) (name : Str)
    (rows : List (Dict String Cell)) (hdot : '.' ∉ project) (hf : BelongsTo name project)
    (ho : ∀ g ∈ pre ++ post, ¬ project <+: g.1) (set : Cell) :
    limits (pre ++ post) project set = .ok (.num (some (27 / 10)), .num (some (42 / 10))) ∧
    (∀ before r after lo hi, rows = before ++ r :: after →
      (∀ x ∈ before, ¬ OfSet x set) →
      OfSet r set →
      Dict.get? r "diagnostic_discharge_cutoff_voltage" = some lo →
      Dict.get? r "diagnostic_charge_cutoff_voltage" = some hi →
      limits (pre ++ (name, rows) :: post) project set = .ok (lo, hi)) ∧
    ((∀ x ∈ rows, ¬ OfSet x set) →
      limits (pre ++ (name, rows) :: post) project set = .error .indexError) := by
  have hp : project <+: name := by obtain ⟨_, rest, e⟩ := hf; exact ⟨_, e.symm⟩
  have hg := Props.Ingest.glob_single project pre post (name, rows) hp (Props.Ingest.belongs_head _ _ hf hdot) ho
  have hany : ∀ x : Dict String Cell, (Dict.get? x "diagnostic_parameter_set").any (·.same set) = true ↔
      OfSet x set := by
    intro x
    unfold OfSet
    cases Dict.get? x "diagnostic_parameter_set" with
    | none => simp
    | some c =>
      simp only [Option.any_some, Option.some.injEq, exists_eq_left', same_iff]
  refine ⟨?_, ?_, ?_⟩
  · have hg0 : Ingest.globPrefix project (pre ++ post) = [] := by
      rw [Ingest.globPrefix, List.filter_eq_nil_iff]
      intro g hg hh
      simp only [Bool.and_eq_true] at hh
      exact ho g hg (List.isPrefixOf_iff_prefix.1 hh.1)
    unfold limits
    rw [hg0]
  · intro before r after lo hi e hb hr hlo hhi
    have hfind : rows.find? (fun r => (Dict.get? r "diagnostic_parameter_set").any (·.same set)) = some r := by
      rw [e, List.find?_append, List.find?_eq_none.mpr (fun x hx h => hb x hx ((hany x).mp h))]
      rw [List.find?_cons, (hany r).mpr hr]
      rfl
    unfold limits
    rw [hg]
    simp only [hfind, hlo, hhi]
  · intro hb
    unfold limits
    rw [hg]
    simp only [List.find?_eq_none.mpr (fun x hx h => hb x hx ((hany x).mp h))]

/-! ### C120 -/

/-- C120: `diagnostic_starts_at` holds the cycles at which a diagnostic begins, each once, and no others; in
increasing order if the cycles of the data are in order.  The second diagnostic is expected six cycles after
the start of the row. -/
theorem C120_starts (dir : Option (List (Str × List Row))) (path : Str) (d : Raw) (a p : Params) (v : Available)
    (h : determine dir path d a = .ok p) (hv : p.diagnostic = some v) :
    ∃ files rows r more start, dir = some files ∧ Ingest.lookup Row.seq files path = .ok (some (r :: more, rows)) ∧
      In r "diagnostic_start_cycle" (.int start) ∧ v.startsAt.Nodup ∧
      (∀ c, c ∈ v.startsAt ↔ Begins d (start + 6) c) ∧
      ((d.map Prod.fst).Pairwise (· ≤ ·) → v.startsAt.Pairwise (· < ·)) := by
  unfold determine at h
  split at h
  · cases h
  split at h
  · cases h
  · rename_i files _ r more rows e
    split at h
    · cases h
    · rename_i diag hd
      cases h
      simp only at hv
      subst hv
      obtain ⟨d1, d2, d3, d4⟩ := diagnostics_eq d r
      by_cases hh : HppcRpt r
      · by_cases hs : ∃ start, In r "diagnostic_start_cycle" (.int start)
        · obtain ⟨start, hs⟩ := hs
          by_cases hp : HasColumn r "diagnostic_parameter_set"
          · obtain ⟨set, hp⟩ := hp
            rw [d2 start set hh hs hp] at hd
            cases hd
            have h6 : 1 + start + 5 = start + 6 := by omega
            refine ⟨files, rows, r, more, start, rfl, e, hs, nodup_startsAt _ _, ?_, ?_⟩
            · intro c
              rw [mem_startsAt, h6]
            · intro hsorted
              have hle := List.Pairwise.sublist (startsAt_sublist d (1 + start + 5)) hsorted
              have hnd := nodup_startsAt d (1 + start + 5)
              exact (hle.and hnd).imp (fun h => lt_of_le_of_ne h.1 h.2)
          · rw [d4 start hh hs hp] at hd; cases hd
        · rw [d3 hh hs] at hd; cases hd
      · rw [d1 hh] at hd
        cases hd
  · cases h
    simp only at hv
    cases hv

/-- C120: the first cycle, and the cycle at which the second diagnostic is expected, are found whenever they
are in the data -/
theorem C120_expected (d : Raw) (second c : Int) (hc : c = 1 ∨ c = second) (hin : ∃ s, (c, s) ∈ d) :
    Begins d second c := by
  refine ⟨hin, ?_⟩
  rcases hc with rfl | rfl
  · exact Or.inl (fun s => Iff.rfl)
  · exact Or.inr (Or.inl (fun s => Iff.rfl))

/-! ### Concrete cases -/

def demoRow (n : Int) (lo hi : Rat) : Row :=
  ⟨n, [("capacity_nominal", .num (some 3)), ("discharge_cutoff_voltage", .num (some lo)),
    ("charge_cutoff_voltage", .num (some hi)), ("diagnostic_type", .text "HPPC+RPT"),
    ("diagnostic_start_cycle", .int 2), ("diagnostic_interval", .int 10),
    ("diagnostic_parameter_set", .text "Tesla21700")]⟩

def demoDir : List (Str × List Row) :=
  [("PreDiag_parameters.csv".toList, [demoRow 286 2 4, demoRow 287 (5 / 2) (21 / 5)])]

/-- diagnostics from cycle 1 (steps 1-2, then others) and from cycle 8; a last one from cycle 14 whose steps
have other numbers; the cycles between them have the steps 20 to 23 -/
def demoRaw : Raw :=
  [(1, 1), (1, 2), (2, 3), (3, 4), (4, 5), (5, 6), (6, 20), (6, 21), (6, 22), (7, 20), (7, 21), (7, 22),
   (8, 11), (8, 12), (9, 13), (10, 14), (11, 15), (12, 16), (13, 20), (13, 21), (13, 22),
   (14, 31), (14, 32), (15, 33), (16, 34), (17, 35), (18, 36)]

example : determine (some demoDir) "data/PreDiag_000287_000128.092".toList demoRaw {} =
    .ok ⟨some (some 2, some (21 / 5)), 1000, .num (some 3), 4 / 5,
      some ⟨.text "Tesla21700", ["reset", "hppc", "rpt_0.2C", "rpt_1C", "rpt_2C"], 5, [1, 8, 14]⟩⟩ := by
  decide +kernel

example : BelongsTo "PreDiag_parameters.csv".toList "PreDiag".toList ∧ HppcRpt (demoRow 287 2 4) :=
  ⟨⟨by decide, "parameters.csv".toList, by decide⟩, rfl, ⟨_, rfl⟩, ⟨_, rfl⟩⟩

/-- a run of the same project without diagnostics makes the starts floats -/
example : determine (some [("PreDiag_parameters.csv".toList,
      [⟨287, [("diagnostic_type", .text "HPPC+RPT"), ("diagnostic_start_cycle", .num (some 30)),
        ("diagnostic_interval", .num (some 100)), ("diagnostic_parameter_set", .text "Tesla21700")]⟩,
       ⟨288, [("diagnostic_type", .num none), ("diagnostic_start_cycle", .num none),
        ("diagnostic_interval", .num none), ("diagnostic_parameter_set", .num none)]⟩])])
    "data/PreDiag_000287_000128.092".toList demoRaw {} = .error .typeError := by decide +kernel

example : limits [("PreDiag_parameters.csv".toList, [[("diagnostic_parameter_set", .text "A"),
      ("diagnostic_discharge_cutoff_voltage", .num (some 3)), ("diagnostic_charge_cutoff_voltage", .num (some 4))],
      [("diagnostic_parameter_set", .text "B"), ("diagnostic_discharge_cutoff_voltage", .num (some 2)),
       ("diagnostic_charge_cutoff_voltage", .num (some 5))]])] "PreDiag".toList (.text "B") =
    .ok (.num (some 2), .num (some 5)) := by decide +kernel

end Beep.Props.RunParameters
