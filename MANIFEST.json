{
 "claims": [
  {
   "property": "C01",
   "status": "proved",
   "theorems": [
    "Beep.Diagnostic.C01_accept_iff",
    "Beep.Diagnostic.C01_reject",
    "Beep.Diagnostic.C01_lookup"
   ],
   "note": "acceptance, error kind and lookup, for every mapping with distinct keys"
  },
  {
   "property": "C02",
   "status": "proved",
   "theorems": [
    "Beep.Diagnostic.C02_all",
    "Beep.Diagnostic.C02_special",
    "Beep.Diagnostic.C02_special_subset"
   ],
   "note": "membership in all four derived sets; lower() restricted to ASCII"
  },
  {
   "property": "C03",
   "status": "proved",
   "theorems": [
    "Beep.Diagnostic.C03_label",
    "Beep.Diagnostic.C03_accept_iff",
    "Beep.Diagnostic.C03_error"
   ],
   "note": "labels, acceptance and errors for every table and criteria dictionary"
  },
  {
   "property": "C04",
   "status": "proved",
   "theorems": [
    "Beep.Diagnostic.C04_round_trip"
   ],
   "note": "identical configuration"
  },
  {
   "property": "C05",
   "status": "partial",
   "theorems": [
    "Beep.Validate.C05_valid_iff",
    "Beep.Validate.C05_first_failure",
    "Beep.Validate.C05_missing_column",
    "Beep.Validate.C05_increasing_violated",
    "Beep.Validate.C05_message_violated",
    "Beep.Validate.C05_found_violated"
   ],
   "note": "exact decision procedure of the validator; two ways in which the English claim fails are proved as C05_*_violated (decrease across a missing value, wrong threshold in a message)"
  },
  {
   "property": "C06",
   "status": "partial",
   "theorems": [
    "Beep.Datapath.C06_history_partial",
    "Beep.Datapath.C06_reload_structured_partial",
    "Beep.Datapath.C06_reload_violated",
    "Beep.Datapath.C06_failed_structure_violated"
   ],
   "note": "history invariant for loads, saves and structure calls; unstructured objects that are reloaded, and structure calls that fail midway, report the wrong state (violations proved)"
  },
  {
   "property": "C07",
   "status": "proved",
   "theorems": [
    "Beep.Datapath.C07_lossless",
    "Beep.Datapath.C07_default_keeps_frames",
    "Beep.Datapath.C07_row_labels",
    "Beep.Datapath.C07_default_loses"
   ],
   "note": "lossless for the full save; the default save keeps the frames but loses the structuring state (proved)"
  },
  {
   "property": "C08",
   "status": "proved",
   "theorems": [
    "Beep.Datapath.C08_must_be_structured",
    "Beep.Datapath.C08_unstructured_refuses",
    "Beep.Datapath.C08_legacy_frozen",
    "Beep.Datapath.C08_not_legacy",
    "Beep.Datapath.C08_setter"
   ],
   "note": "guards of every method, for every object state"
  },
  {
   "property": "C09",
   "status": "partial",
   "theorems": [
    "Beep.Steps.C09_partition_partial",
    "Beep.Steps.C09_order",
    "Beep.Steps.C09_nan_step_violated"
   ],
   "note": "partition proved for rows with a step index; rows with a NaN step index are lost (violation proved)"
  },
  {
   "property": "C10",
   "status": "partial",
   "theorems": [
    "Beep.Steps.C10_charge_partial",
    "Beep.Steps.C10_discharge_partial",
    "Beep.Steps.C10_both_partial",
    "Beep.Steps.C10_rest",
    "Beep.Steps.C10_two_row_charge_violated",
    "Beep.Steps.C10_jump_discharge_violated",
    "Beep.Steps.C10_only_charge_partial",
    "Beep.Steps.C10_missing_charge_violated",
    "Beep.Steps.C10_missing_rest_violated"
   ],
   "note": "proved for rising columns without a single jump above 99 %; counterexamples for two-row steps, single jumps and a missing column"
  },
  {
   "property": "C11",
   "status": "proved",
   "theorems": [
    "Beep.Props.CyclesInterp.C11_beyond",
    "Beep.Props.Interp.C11_grid",
    "Beep.Props.Interp.C11_default_range",
    "Beep.Props.Interp.C11_endpoints",
    "Beep.Props.Interp.C11_grid_descending",
    "Beep.Props.Interp.C11_exact",
    "Beep.Props.Interp.C11_linear",
    "Beep.Props.Interp.C11_bounded",
    "Beep.Props.Interp.C11_defined",
    "Beep.Props.Interp.C11_degenerate"
   ],
   "note": "grid, end points, exactness, linearity, bounds, definedness; exact rational arithmetic, date axis not modelled"
  },
  {
   "property": "C12",
   "status": "proved",
   "theorems": [
    "Beep.Props.CyclesInterp.C12_accepts",
    "Beep.Props.CyclesInterp.C12_count",
    "Beep.Props.Interp.C12_only_requested",
    "Beep.Props.Interp.C12_order",
    "Beep.Props.Interp.C12_voltage_succeeds",
    "Beep.Props.Interp.C12_unknown_axis",
    "Beep.Props.Interp.C12_no_diagnostic"
   ],
   "note": "cycles, order, row counts, refusal, exclusion of diagnostics; columns without any value on a capacity/time axis are outside the model"
  },
  {
   "property": "C13",
   "status": "proved",
   "theorems": [
    "Beep.Props.Summary.C13_running_sum",
    "Beep.Props.Summary.C13_monotone",
    "Beep.Props.Summary.C13_monotone_energy",
    "Beep.Props.Summary.C13_difference",
    "Beep.Props.Summary.C13_difference_energy"
   ],
   "note": "running sum, monotonicity and per-cycle differences, for every raw table"
  },
  {
   "property": "C14",
   "status": "partial",
   "theorems": [
    "Beep.Props.Summary.C14_duration_partial",
    "Beep.Props.Summary.C14_one_based_violated",
    "Beep.Props.Summary.C14_witness_violated",
    "Beep.Props.Summary.C14_defaults"
   ],
   "note": "the duration is correct when cycle numbers are 0,1,2,... in order; proved wrong for every other numbering (positional versus label alignment)"
  },
  {
   "property": "C15",
   "status": "partial",
   "theorems": [
    "Beep.Props.Summary.C15_contents",
    "Beep.Props.Summary.C15_last_cycle_partial",
    "Beep.Props.Summary.C15_no_regular",
    "Beep.Props.Summary.C15_diagnostic_end_violated"
   ],
   "note": "exact contents; the trailing-cycle rule proved when the last raw cycle is a regular one; violation when it is a diagnostic cycle"
  },
  {
   "property": "C16",
   "status": "partial",
   "theorems": [
    "Beep.Props.Summary.C16_cycle_life_partial",
    "Beep.Props.Summary.C16_no_reference",
    "Beep.Props.Summary.C16_reference",
    "Beep.Props.Summary.C16_median",
    "Beep.Props.Summary.C16_monotone_partial",
    "Beep.Props.Summary.C16_equality_violated",
    "Beep.Props.Summary.C16_recovery_violated",
    "Beep.Props.Summary.C16_monotone_violated"
   ],
   "note": "proved when the ratio falls strictly and once; equality, recovery and monotonicity counterexamples proved"
  },
  {
   "property": "C17",
   "status": "partial",
   "theorems": [
    "Beep.Props.Summary.C17_capacities",
    "Beep.Props.Summary.C17_order_partial",
    "Beep.Props.Summary.C17_cycles_partial",
    "Beep.Props.Summary.C17_uneven_violated",
    "Beep.Props.Summary.C17_short_violated",
    "Beep.Props.Summary.C17_position_violated"
   ],
   "note": "capacity table proved; cycle table proved for ranges that the interval divides; counterexamples proved"
  },
  {
   "property": "C18",
   "status": "partial",
   "theorems": [
    "Beep.Props.Segments.C18_segment_partial",
    "Beep.Props.Segments.C18_quantities",
    "Beep.Props.Segments.C18_from_start_violated",
    "Beep.Props.Segments.C18_no_cv_violated"
   ],
   "note": "proved for charges whose first CV pair is not the first pair; the two other cases are proved to go wrong for every such table"
  },
  {
   "property": "C19",
   "status": "partial",
   "theorems": [
    "Beep.Props.Segments.C19_pause",
    "Beep.Props.Segments.C19_machine_partial",
    "Beep.Props.Segments.C19_fraction_partial",
    "Beep.Props.Segments.C19_fraction_violated",
    "Beep.Props.Segments.C19_clock_change_violated"
   ],
   "note": "exact for whole seconds on a machine whose clock is not changed in between (C19_machine_partial), up to a second otherwise (C19_fraction_partial); fractions and stamps without time zone across a clock change are violations"
  },
  {
   "property": "C20",
   "status": "partial",
   "theorems": [
    "Beep.Props.MaccorQuantity.C20_accumulation_partial",
    "Beep.Props.MaccorQuantity.C20_dangling_violated",
    "Beep.Props.MaccorQuantity.C20_cycle_inside_step_violated"
   ],
   "note": "proved when cycles change only where a step completes and the file does not end in the first step of a new cycle; both excluded cases have counterexamples"
  },
  {
   "property": "C21",
   "status": "proved",
   "theorems": [
    "Beep.Props.CycleRules.C21_defined",
    "Beep.Props.CycleRules.C21_first",
    "Beep.Props.CycleRules.C21_step",
    "Beep.Props.CycleRules.C21_monotone",
    "Beep.Props.CycleRules.C21_files"
   ],
   "note": "Every defined rule set numbers every record; the first record has the cycle of technique start, each later record adds exactly the advances of the technique loops, technique starts and sequence transitions crossed, numbering never decreases and continues over files."
  },
  {
   "property": "C22",
   "status": "partial",
   "theorems": [
    "Beep.Props.CycleRules.C22_roundtrip",
    "Beep.Props.CycleRules.C22_missing_field_partial",
    "Beep.Props.CycleRules.C22_bad_entry_partial",
    "Beep.Props.CycleRules.C22_duplicate_violated",
    "Beep.Props.CycleRules.C22_type_violated"
   ],
   "note": "Written rules are read back unchanged and a missing field or malformed entry is refused. Violated: duplicate transitions are silently overwritten and wrongly typed values are accepted (C22_duplicate_violated, C22_type_violated)."
  },
  {
   "property": "C23",
   "status": "partial",
   "theorems": [
    "Beep.Props.CycleCount.C23_numbers_partial",
    "Beep.Props.CycleCount.C23_files_partial",
    "Beep.Props.CycleCount.C23_index_partial",
    "Beep.Props.CycleCount.C23_first_adv_violated",
    "Beep.Props.CycleCount.C23_single_violated",
    "Beep.Props.CycleCount.C23_lead_violated"
   ],
   "note": "Proved for procedures whose techniques are regular (each measures something, loop bodies begin with a measurement, a body ending in AdvCycle has two sequences, a repeated technique does not begin with AdvCycle), in both directions between performances of the Maccor procedure and files of the techniques, any number of loop repetitions. For irregular techniques the generated rules misnumber: three witnesses."
  },
  {
   "property": "C24",
   "status": "partial",
   "theorems": [
    "Beep.Props.MtbPartition.C24_cover",
    "Beep.Props.MtbPartition.C24_loops_partial",
    "Beep.Props.MtbPartition.C24_converted",
    "Beep.Props.MtbPartition.C24_unclosed_violated"
   ],
   "note": "Partition either tiles the step list or refuses it for one of two stated reasons; loops inside a technique are paired and not nested. Violated: a loop that is never closed is converted (C24_unclosed_violated)."
  },
  {
   "property": "C25",
   "status": "proved",
   "theorems": [
    "Beep.Props.MtbSeqs.C25_sequences",
    "Beep.Props.MtbSeqs.C25_range",
    "Beep.Props.MtbSeqs.C25_refused"
   ],
   "note": "Sequences are numbered consecutively over the technique; every accepted goto lands on the first sequence of the intended step (or just behind the technique); what does not fit is refused."
  },
  {
   "property": "C26",
   "status": "partial",
   "theorems": [
    "Beep.Props.MtbSteps.C26_last_partial",
    "Beep.Props.MtbSteps.C26_dropped_violated",
    "Beep.Props.MtbSteps.C26_mappers_violated"
   ],
   "note": "Only the last sequence mapping survives (C26_last_partial); the others are dropped (C26_dropped_violated, C26_mappers_violated)."
  },
  {
   "property": "C27",
   "status": "partial",
   "theorems": [
    "Beep.Props.MtbSteps.C27_filter_partial",
    "Beep.Props.MtbSteps.C27_single_violated"
   ],
   "note": "Exact for end entries given as a list or absent; violated for a step with a single end entry, which is never filtered (C27_single_violated)."
  },
  {
   "property": "C28",
   "status": "partial",
   "theorems": [
    "Beep.Props.MtbSteps.C28_no_limit",
    "Beep.Props.MtbSteps.C28_split_partial",
    "Beep.Props.MtbSteps.C28_first_part_violated"
   ],
   "note": "A step without limits is kept, a split step holds the limit in its second part with the original ends; violated: the first part loses the original ends (C28_first_part_violated)."
  },
  {
   "property": "C29",
   "status": "partial",
   "theorems": [
    "Beep.Props.Units.C29_volts",
    "Beep.Props.Units.C29_amps",
    "Beep.Props.Units.C29_amps_range",
    "Beep.Props.Units.C29_watts",
    "Beep.Props.Units.C29_ohms",
    "Beep.Props.Units.C29_volts_rounded",
    "Beep.Props.Units.C29_volts_violated",
    "Beep.Props.Units.C29_time_partial",
    "Beep.Props.Units.C29_time_hours_violated",
    "Beep.Props.Units.C29_volts_back",
    "Beep.Props.Units.C29_amps_back",
    "Beep.Props.Units.C29_watts_back",
    "Beep.Props.Units.C29_ohms_back_violated",
    "Beep.Props.Units.C29_time_back_partial"
   ],
   "note": "Volts, amps, watts and ohms are exact up to the documented rounding, times exact for whole numbers of hours and minutes. Violated: fractional hours/minutes are truncated, ohms are never converted back, voltage rounding to 3 decimals loses digits."
  },
  {
   "property": "C30",
   "status": "partial",
   "theorems": [
    "Beep.Props.BiologicToMaccor.C30_kind_partial",
    "Beep.Props.BiologicToMaccor.C30_charge_violated"
   ],
   "note": "Kind of step and value preserved for discharge and rest. Violated: every charge step comes out as a discharge step."
  },
  {
   "property": "C31",
   "status": "partial",
   "theorems": [
    "Beep.Props.BiologicToMaccor.C31_disjoint",
    "Beep.Props.BiologicToMaccor.C31_layout_partial",
    "Beep.Props.BiologicToMaccor.C31_jumps",
    "Beep.Props.BiologicToMaccor.C31_goto_violated",
    "Beep.Props.BiologicToMaccor.C31_loop_number",
    "Beep.Props.BiologicToMaccor.C31_count_violated"
   ],
   "note": "Steps and sequences are numbered disjointly and the layout of Do/Loop is as required. Violated: the loop count is written to the wrong field and is one too low; forward gotos to a loop start skip the Do step."
  },
  {
   "property": "C32",
   "status": "partial",
   "theorems": [
    "Beep.Props.ArbinRun.C32_logging_partial",
    "Beep.Props.MaccorToArbin.C32_end_partial",
    "Beep.Props.MaccorToArbin.C32_discharge_violated",
    "Beep.Props.MaccorToArbin.C32_time_partial",
    "Beep.Props.MaccorToArbin.C32_time_violated",
    "Beep.Props.MaccorToArbin.C32_indices_partial",
    "Beep.Props.MaccorToArbin.C32_reports_violated"
   ],
   "note": "Each converted end keeps quantity, comparison and threshold and destination; limit numbering is consecutive for end lists. Violated: current >= in discharge steps is reversed; a single end with reports numbers limits 0 and 5 or loses the reports; times of a day or more, and ::ss, are refused."
  },
  {
   "property": "C33",
   "status": "partial",
   "theorems": [
    "Beep.Props.MaccorToArbin.C33_flow_partial",
    "Beep.Props.MaccorToArbin.C33_limit",
    "Beep.Props.MaccorToArbin.C33_schedule_partial",
    "Beep.Props.MaccorToArbin.C33_start_violated",
    "Beep.Props.MaccorToArbin.C33_nested_violated"
   ],
   "note": "Loops properly nested and not opened by the first two steps go back behind their Do (from the procedure to the written limit). Violated: a loop opened by step 1 or 2 is refused or jumps inside another loop."
  },
  {
   "property": "C34",
   "status": "partial",
   "theorems": [
    "Beep.Props.ArbinFile.C34_round_trip_partial",
    "Beep.Props.ArbinFile.C34_empty_violated",
    "Beep.Props.ArbinFile.C34_top_level_violated"
   ],
   "note": "Round trip at the level of characters for every schedule whose sections have a plain entry and whose keys and values contain none of the format's separators. Violated: a section without plain entries is written but not readable; top level plain entries are not written."
  },
  {
   "property": "C35",
   "status": "partial",
   "theorems": [
    "Beep.Props.FixedWidth.C35_refused",
    "Beep.Props.FixedWidth.C35_round_trip_partial",
    "Beep.Props.FixedWidth.C35_blank_violated",
    "Beep.Props.FixedWidth.C35_wide_violated"
   ],
   "note": "Round trip for values without surrounding blanks; refusal is exact. Violated: blanks at the ends are lost; Settings.to_file does not refuse wide values and shifts columns."
  },
  {
   "property": "C36",
   "status": "partial",
   "theorems": [
    "Beep.Props.MaccorProcedure.C36_chargeV2_partial",
    "Beep.Props.MaccorProcedure.C36_chargeV3_partial",
    "Beep.Props.MaccorProcedure.C36_discharge_partial",
    "Beep.Props.MaccorProcedure.C36_hppc_partial",
    "Beep.Props.MaccorProcedure.C36_charge_day_violated",
    "Beep.Props.MaccorProcedure.C36_discharge_day_violated"
   ],
   "note": "Proved for durations below a day, for all insert functions with durations. Violated for every duration of a day or more (strftime of gmtime drops whole days), in general."
  },
  {
   "property": "C37",
   "status": "proved",
   "theorems": [
    "Beep.Props.MaccorProcedure.C37_rest_written",
    "Beep.Props.MaccorProcedure.C37_rests_differ",
    "Beep.Props.MaccorProcedure.C37_slots_used",
    "Beep.Props.MaccorProcedure.C37_procedure"
   ],
   "note": "Rest written, bounds, pairwise difference, use of every slot, and persistence in the finished procedure."
  },
  {
   "property": "C38",
   "status": "partial",
   "theorems": [
    "Beep.Props.Waveform.C38_reproduces",
    "Beep.Props.Waveform.C38_durations",
    "Beep.Props.Waveform.C38_largest",
    "Beep.Props.Waveform.C38_lines_differ_partial",
    "Beep.Props.Waveform.C38_lines_differ_violated",
    "Beep.Props.Waveform.C38_zeros_violated",
    "Beep.Props.Waveform.C38_columns",
    "Beep.Props.Waveform.C38_defaults"
   ],
   "note": "Expansion, durations, peak and columns proved (values to five decimals, as written). Consecutive lines differ under a separation hypothesis; violated for closer values. Violated: a waveform of zeros is written as charge without value."
  },
  {
   "property": "C39",
   "status": "partial",
   "theorems": [
    "Beep.Props.Waveform.C39_violated",
    "Beep.Props.Waveform.C39_without_driving_partial",
    "Beep.Props.Waveform.C39_driving_partial"
   ],
   "note": "Violated: insert_driving_parametersv1 writes into the shared default configuration. Proved for histories without it, and for every call that brings its own configuration."
  },
  {
   "property": "C40",
   "status": "proved",
   "theorems": [
    "Beep.Props.MaccorProcedure.C40_only_pads",
    "Beep.Props.MaccorProcedure.C40_idempotent",
    "Beep.Props.MaccorProcedure.C40_strip"
   ],
   "note": "Every padded field, the unchanged rest, idempotence, and that stripping gives back the original."
  },
  {
   "property": "C41",
   "status": "proved",
   "theorems": [
    "Beep.Props.Parsers.C41_monotone",
    "Beep.Props.Parsers.C41_rows",
    "Beep.Props.Parsers.C41_continuing",
    "Beep.Props.Parsers.C41_accepts"
   ],
   "note": "counters monotone, rows kept, refusal exactly for a file without rows"
  },
  {
   "property": "C42",
   "status": "proved",
   "theorems": [
    "Beep.Props.Parsers.C42_starts",
    "Beep.Props.Parsers.C42_increment",
    "Beep.Props.Parsers.C42_monotone"
   ],
   "note": "start, monotonicity and exact increments for every sequence of record times"
  },
  {
   "property": "C43",
   "status": "partial",
   "theorems": [
    "Beep.Props.Parsers.C43_step_time_partial",
    "Beep.Props.Parsers.C43_last_row_violated",
    "Beep.Props.Parsers.C43_one_row_violated"
   ],
   "note": "proved for every row of tables of two or more rows except a last row that begins its own step; that case and one-row tables are proved to violate the claim"
  },
  {
   "property": "C44",
   "status": "partial",
   "theorems": [
    "Beep.Props.Parsers.C44_accepts",
    "Beep.Props.Parsers.C44_charge_rows",
    "Beep.Props.Parsers.C44_discharge_rows",
    "Beep.Props.Parsers.C44_discharge_partial",
    "Beep.Props.Parsers.C44_discharge_only_capacity",
    "Beep.Props.Parsers.C44_discharge_only_energy_violated",
    "Beep.Props.Parsers.C44_rest_rows"
   ],
   "note": "proved for cycles with a charge (end of charge = largest charge reading of the cycle) and for the capacity of discharge-only cycles; the energy of discharge-only cycles is proved to be a capacity minus an energy"
  },
  {
   "property": "C45",
   "status": "proved",
   "theorems": [
    "Beep.Props.Features.C45_rows",
    "Beep.Props.Features.C45_cells",
    "Beep.Props.Features.C45_columns",
    "Beep.Props.Features.C45_names",
    "Beep.Props.Features.C45_duplicates",
    "Beep.Props.Features.C45_accepts",
    "Beep.Props.Features.C45_refuses"
   ],
   "note": "rows, columns, cells, refusals and acceptance for every list of featurizers; SHA-256 is an arbitrary function with 64 character results, class names contain no colon"
  },
  {
   "property": "C46",
   "status": "partial",
   "theorems": [
    "Beep.Props.Features.C46_distinct_partial",
    "Beep.Props.Features.C46_order",
    "Beep.Props.Features.C46_same_keys_violated",
    "Beep.Props.Features.C46_types_violated"
   ],
   "note": "proved for dictionaries with the same keys whose keys and written values contain no colon, given that the two digests differ; proved to fail for text values with colons (same keys) and for values of different type written the same way"
  },
  {
   "property": "C47",
   "status": "proved",
   "theorems": [
    "Beep.Props.Features.C47_constructs",
    "Beep.Props.Features.C47_hyperparameters",
    "Beep.Props.Features.C47_save",
    "Beep.Props.Features.C47_round_trip"
   ],
   "note": "acceptance, hyperparameters used, refusal to save before features exist, round trip; feature tables have at least one column and the default index"
  },
  {
   "property": "C48",
   "status": "partial",
   "theorems": [
    "Beep.Props.Splitter.C48_split",
    "Beep.Props.Splitter.C48_cells",
    "Beep.Props.Splitter.C48_groups_partial",
    "Beep.Props.Splitter.C48_groups_violated"
   ],
   "note": "Disjointness, covering and alignment are proved for every cleaned matrix and fold assignment. Group separation is proved when the split columns are not also features; C48_groups_violated shows it fails otherwise, because the group value then contains the sample name."
  },
  {
   "property": "C49",
   "status": "partial",
   "theorems": [
    "Beep.Props.LinearModel.C49_linear_partial",
    "Beep.Props.LinearModel.C49_linear_complete_partial",
    "Beep.Props.LinearModel.C49_linear_violated",
    "Beep.Props.LinearModel.C49_linear_complete_violated",
    "Beep.Props.Prediction.C49_imputed",
    "Beep.Props.Prediction.C49_linear_imputed",
    "Beep.Props.Splitter.C49_splitter_partial",
    "Beep.Props.Splitter.C49_values",
    "Beep.Props.Splitter.C49_excluded",
    "Beep.Props.Splitter.C49_samples",
    "Beep.Props.Splitter.C49_complete_partial",
    "Beep.Props.Splitter.C49_sample_violated",
    "Beep.Props.Splitter.C49_complete_violated"
   ],
   "note": "Splitter: the thresholds are those applied, over all columns including split and exclusion columns. C49_sample_violated and C49_complete_violated give the failing cases. Linear model: exact when both thresholds are equal; C49_linear_violated shows the feature threshold is otherwise ignored."
  },
  {
   "property": "C50",
   "status": "partial",
   "theorems": [
    "Beep.Props.Splitter.C50_round_trip_partial",
    "Beep.Props.Splitter.C50_violated",
    "Beep.Props.Splitter.C50_impute_violated"
   ],
   "note": "The round trip is proved for splitters with default imputation and no exclusion or drop threshold; the saved form omits those settings (C50_violated, C50_impute_violated)."
  },
  {
   "property": "C51",
   "status": "partial",
   "theorems": [
    "Beep.Props.LinearModel.C51_predictions_partial",
    "Beep.Props.LinearModel.C51_dropped_violated",
    "Beep.Props.LinearModel.C51_absent_feature_violated",
    "Beep.Props.LinearModel.C51_extra_violated"
   ],
   "note": "One prediction for every sample reaching the threshold is proved when the frame has exactly the training features. The dropped list names every sample (C51_dropped_violated), extra columns change the outcome (C51_extra_violated), an absent feature raises (C51_absent_feature_violated)."
  },
  {
   "property": "C52",
   "status": "partial",
   "theorems": [
    "Beep.Props.LinearModel.C52_unchanged_partial",
    "Beep.Props.LinearModel.C52_violated"
   ],
   "note": "Holds when names are not homogenized; otherwise the first call renames the caller's columns (C52_violated)."
  },
  {
   "property": "C53",
   "status": "partial",
   "theorems": [
    "Beep.Props.LinearModel.C53_reload_partial",
    "Beep.Props.LinearModel.C53_subset_violated",
    "Beep.Props.LinearModel.C53_targets_violated",
    "Beep.Props.LinearModel.C53_own_violated"
   ],
   "note": "Holds after train on data whose targets are all present. Fails after train_and_score (C53_subset_violated), with dropped targets (C53_targets_violated), and after predicting on the own matrix (C53_own_violated)."
  },
  {
   "property": "C54",
   "status": "partial",
   "theorems": [
    "Beep.Props.Batch.C54_accounts_partial",
    "Beep.Props.Batch.C54_report",
    "Beep.Props.Batch.C54_halt",
    "Beep.Props.Batch.C54_missing_violated",
    "Beep.Props.Batch.C54_overwritten_violated",
    "Beep.Props.Transfer.C54_automatic_violated"
   ],
   "note": "Proved for files that exist, outputs that are not inputs, and no Ctrl-C; the report and halt-on-error parts hold without restriction. A missing file stops the whole batch before anything is done (C54_missing_violated); an output that is a later input changes that file's outcome (C54_overwritten_violated)."
  },
  {
   "property": "C55",
   "status": "partial",
   "theorems": [
    "Beep.Props.Batch.C55_names_partial",
    "Beep.Props.Batch.C55_kept_partial",
    "Beep.Props.Batch.C55_violated",
    "Beep.Props.Batch.C55_lost_violated"
   ],
   "note": "Automatically chosen outputs coincide exactly when two inputs have the same name without directory and extension (C55_names_partial), so the property fails for such inputs (C55_violated, C55_lost_violated). When outputs differ every structured file is kept (C55_kept_partial)."
  },
  {
   "property": "C56",
   "status": "partial",
   "theorems": [
    "Beep.Props.Generate.C56_accounts_partial",
    "Beep.Props.Generate.C56_reports",
    "Beep.Props.Generate.C56_raises_violated"
   ],
   "note": "Proved for tables whose rows are either supported or reported as unsupported. An exception raised by the builder of one row leaves the function: no row is reported and later rows are not generated (C56_raises_violated)."
  },
  {
   "property": "C57",
   "status": "proved",
   "theorems": [
    "Beep.Props.Dash.C57_get_set",
    "Beep.Props.Dash.C57_set_other",
    "Beep.Props.Dash.C57_set_fails",
    "Beep.Props.Dash.C57_unset",
    "Beep.Props.Dash.C57_unset_other",
    "Beep.Props.Dash.C57_unset_parent"
   ],
   "note": "get after set, frame of set, exact failure condition of set, unset removes the path and nothing else. pydash itself is modelled, not verified."
  },
  {
   "property": "C58",
   "status": "partial",
   "theorems": [
    "Beep.Props.Routing.C58_routing",
    "Beep.Props.Routing.C58_directory_violated"
   ],
   "note": "Choice and precedence are proved exactly. The patterns are matched against the whole path, so a directory name changes the choice (C58_directory_violated)."
  },
  {
   "property": "C59",
   "status": "proved",
   "theorems": [
    "Beep.Props.StepRoles.C59_roles",
    "Beep.Props.StepRoles.C59_raises"
   ],
   "note": "Proved in both directions: a result is a one to one labelling of the steps by roles whose descriptions they meet, and a result is returned exactly when there is one. The nominal capacity lookup is a parameter."
  },
  {
   "property": "C60",
   "status": "partial",
   "theorems": [
    "Beep.Props.Schedule.C60_steps_partial",
    "Beep.Props.Schedule.C60_missing_violated",
    "Beep.Props.Schedule.C60_limits"
   ],
   "note": "Both edits are characterised exactly (targets and frame). Violated: a missing label is not an error."
  },
  {
   "property": "C61",
   "status": "partial",
   "theorems": [
    "Beep.Props.MaccorProcedure.C61_modify_step_value",
    "Beep.Props.MaccorProcedure.C61_set_skip_partial",
    "Beep.Props.MaccorProcedure.C61_set_skip_violated"
   ],
   "note": "modify_step_value exact. set_skip_to_end_diagnostic exact for lists of end entries; violated for a step with a single matching end entry."
  },
  {
   "property": "C62",
   "status": "partial",
   "theorems": [
    "Beep.Props.Summary.C62_capacities",
    "Beep.Props.Summary.C62_energies",
    "Beep.Props.Summary.C62_efficiency_violated"
   ],
   "note": "Capacities, energies and efficiency of every row are characterised. Violated: the efficiency is computed before erroneous energies are removed, so it is reported from an energy that is itself reported missing."
  },
  {
   "property": "C63",
   "status": "partial",
   "theorems": [
    "Beep.Props.Summary.C63_reload_partial",
    "Beep.Props.Summary.C63_reload_violated"
   ],
   "note": "proved when cycle numbers are 0,1,2,...; counterexample otherwise"
  },
  {
   "property": "C64",
   "status": "partial",
   "theorems": [
    "Beep.Props.MaccorToArbin.C64_control_partial",
    "Beep.Props.MaccorToArbin.C64_flow",
    "Beep.Props.MaccorToArbin.C64_other_types",
    "Beep.Props.MaccorToArbin.C64_refused",
    "Beep.Props.MaccorToArbin.C64_rate_violated"
   ],
   "note": "Proved for currents in amperes and for steps without limits. Violated: a rate with a voltage limit becomes amperes (charge) or loses the voltage limit (discharge)."
  },
  {
   "property": "C65",
   "status": "partial",
   "theorems": [
    "Beep.Props.MaccorToArbin.C65_twice_partial",
    "Beep.Props.MaccorToArbin.C65_twice_violated"
   ],
   "note": "Proved for procedures without loops. Violated: the second conversion of a procedure with a loop raises."
  },
  {
   "property": "C66",
   "status": "proved",
   "theorems": [
    "Beep.Props.MaccorProcedure.C66_regular_cycle",
    "Beep.Props.MaccorProcedure.C66_diagnostic_cycles",
    "Beep.Props.MaccorProcedure.C66_procedure"
   ],
   "note": "All insert functions and generate_procedure_regcyclev3."
  },
  {
   "property": "C67",
   "status": "proved",
   "theorems": [
    "Beep.Props.Parsers.C67_records",
    "Beep.Props.Parsers.C67_accepts",
    "Beep.Props.Parsers.C67_refuses"
   ],
   "note": "state of the line loop, for every file; character level"
  },
  {
   "property": "C68",
   "status": "partial",
   "theorems": [
    "Beep.Props.Featurize.C68_accounts_partial",
    "Beep.Props.Featurize.C68_kept_partial",
    "Beep.Props.Featurize.C68_intermediate_violated",
    "Beep.Props.Featurize.C68_entries",
    "Beep.Props.Featurize.C68_report",
    "Beep.Props.Featurize.C68_plan",
    "Beep.Props.Featurize.C68_unreadable_violated",
    "Beep.Props.Featurize.C68_parameters_violated",
    "Beep.Props.Featurize.C68_isolation_violated"
   ],
   "note": "Proved for readable files and featurizers that do not change their datapath or hyperparameters: every file and featurizer accounted for, matrix of exactly the created features, intermediate files kept, nothing else touched; without any assumption on featurizers: one entry per file with one sub-entry per featurizer, halt-on-error, the three-way report, and the selection of featurizers with merged hyperparameters. The code violates the rest: a missing or unloadable file ends the whole command (_unreadable_violated), DeltaQFastCharge overwrites a requested hyperparameter (_parameters_violated), HPPC/DiagnosticSummaryStats filter the shared datapath so the next featurizer sees fewer rows (_isolation_violated), and intermediate files of inputs with the same basename or of the same class coincide (_intermediate_violated)."
  },
  {
   "property": "C69",
   "status": "proved",
   "theorems": [
    "Beep.Props.Accepted.C69_acceptsV2",
    "Beep.Props.Accepted.C69_acceptsV3",
    "Beep.Props.Accepted.C69_accepts_diagnosticsV2",
    "Beep.Props.Accepted.C69_accepts_diagnosticsV3",
    "Beep.Props.Inserted.C69_chargeV2",
    "Beep.Props.Inserted.C69_chargeV3",
    "Beep.Props.Inserted.C69_regular",
    "Beep.Props.Inserted.C69_diagnostic",
    "Beep.Props.Inserted.C69_diagnosticsV2",
    "Beep.Props.Inserted.C69_diagnosticsV3",
    "Beep.Props.Inserted.C69_procedureV3",
    "Beep.Props.Inserted.C69_procedureV2",
    "Beep.Props.Inserted.C69_generated"
   ],
   "note": "Per insertion and for whole generated procedures (regular cycles v2/v3, diagnostics v2/v3, and v3 regular cycles followed by its diagnostics). Types and modes in the conclusion are those of the template, so a template of another shape makes the insertion fail. Durations are C36."
  },
  {
   "property": "C70",
   "status": "proved",
   "theorems": [
    "Beep.Props.BtmConditions.C70_conditions",
    "Beep.Props.BtmConditions.C70_refused",
    "Beep.Props.BtmConditions.C70_magnitude"
   ],
   "note": "C70_conditions covers every non-loop sequence of every accepted technique; C70_refused the refusals; C70_magnitude records that current limits on |I|, which the opposite converter writes, are refused. The charge/discharge kind of the step is C30, jump targets are C31."
  },
  {
   "property": "C71",
   "status": "partial",
   "theorems": [
    "Beep.Props.Prediction.C71_accepted",
    "Beep.Props.Prediction.C71_training",
    "Beep.Props.Prediction.C71_prediction",
    "Beep.Props.Prediction.C71_alone_partial",
    "Beep.Props.Prediction.C71_violated"
   ],
   "note": "C71_training and C71_prediction give the model and every prediction in full; C71_alone_partial shows independence of the other samples for samples that have all training features; C71_violated shows that a sample lacking a feature is predicted differently depending on the samples it is predicted with, since missing values are imputed from the prediction matrix instead of the training data."
  },
  {
   "property": "C72",
   "status": "partial",
   "theorems": [
    "Beep.Props.ArbinRun.C72_move_partial",
    "Beep.Props.ArbinRun.C72_runs_partial",
    "Beep.Props.ArbinRun.C72_end_violated"
   ],
   "note": "Runs of schedule and procedure coincide for procedures with properly nested loops that are not opened by the first two steps, are not entered from outside and have positive counts, whose only End is the last step, and whose discharges are not ended by a large current. An End before the last step is refuted."
  },
  {
   "property": "C73",
   "status": "partial",
   "theorems": [
    "Beep.Props.ChargeWave.C73_driving_partial",
    "Beep.Props.ChargeWave.C73_none",
    "Beep.Props.ChargeWave.C73_limit_violated"
   ],
   "note": "the file repeats and scales the profile and carries the requested charge limits and end voltages; discharge lines are always limited at 2.7 V whatever cutoff is requested (C73_limit_violated)."
  },
  {
   "property": "C74",
   "status": "partial",
   "theorems": [
    "Beep.Props.ChargeWave.C74_charging",
    "Beep.Props.ChargeWave.C74_driving_partial",
    "Beep.Props.ChargeWave.C74_driving_violated"
   ],
   "note": "charging names are distinct; driving names only carry profile, repetitions and whole watts, so requests with other limits or fractions of a watt overwrite each other (C74_driving_violated)."
  },
  {
   "property": "C75",
   "status": "partial",
   "theorems": [
    "Beep.Props.ChargeWave.C75_windows_partial",
    "Beep.Props.ChargeWave.C75_bounds",
    "Beep.Props.ChargeWave.C75_defined",
    "Beep.Props.ChargeWave.C75_seconds",
    "Beep.Props.ChargeWave.C75_rate_partial",
    "Beep.Props.ChargeWave.C75_start_violated",
    "Beep.Props.ChargeWave.C75_overlap_violated",
    "Beep.Props.ChargeWave.C75_accepts"
   ],
   "note": "inside the windows the rate is the requested one; the waveform begins at half the rate of its first window (C75_start_violated) and windows out of order are accepted and their rates added (C75_overlap_violated). The smooth curve is a parameter."
  },
  {
   "property": "C76",
   "status": "proved",
   "theorems": [
    "Beep.Props.ChargeWave.C76_file",
    "Beep.Props.ChargeWave.C76_refused",
    "Beep.Props.ChargeWave.C76_accepts"
   ],
   "note": "the samples of the smooth curve are a parameter."
  },
  {
   "property": "C77",
   "status": "partial",
   "theorems": [
    "Beep.Props.ChargeWave.C77_power_partial",
    "Beep.Props.ChargeWave.C77_rest",
    "Beep.Props.ChargeWave.C77_units_partial",
    "Beep.Props.ChargeWave.C77_other",
    "Beep.Props.ChargeWave.C77_mile_violated"
   ],
   "note": "metres per second and kilometres per hour follow the model; a mile is taken as 1600 m (C77_mile_violated)."
  },
  {
   "property": "C78",
   "status": "proved",
   "theorems": [
    "Beep.Props.CyclesInterp.C78_rows",
    "Beep.Props.CyclesInterp.C78_accepts",
    "Beep.Props.CyclesInterp.C78_count"
   ],
   "note": "rows with equal axis values within one step are outside the linearity statement"
  },
  {
   "property": "C79",
   "status": "proved",
   "theorems": [
    "Beep.Props.DiagInterp.C79_rows",
    "Beep.Props.DiagInterp.C79_count",
    "Beep.Props.DiagInterp.C79_sorted",
    "Beep.Props.DiagInterp.C79_unconfigured",
    "Beep.Props.DiagInterp.C79_accepts"
   ],
   "note": "Distinct axis values are needed only for the value of the other columns; equal index labels in the raw data and the returned data frame's dtypes are not modelled."
  },
  {
   "property": "C80",
   "status": "partial",
   "theorems": [
    "Beep.Props.SummaryFull.C80_aggregates",
    "Beep.Props.SummaryFull.C80_paused",
    "Beep.Props.SummaryFull.C80_integral",
    "Beep.Props.SummaryFull.C80_cv_partial",
    "Beep.Props.SummaryFull.C80_cv_from_start_violated",
    "Beep.Props.SummaryFull.C80_cv_never_violated",
    "Beep.Props.SummaryFull.C80_cv_absent"
   ],
   "note": "The CV columns inherit the restriction of C18: proved when the criterion is first met after the first pair of charging rows; the other two cases are proved to go wrong for every summary. Missing test times, voltages, currents, charge capacities and time stamps are not modelled."
  },
  {
   "property": "C81",
   "status": "partial",
   "theorems": [
    "Beep.Props.SummaryFull.C81_rows",
    "Beep.Props.SummaryFull.C81_columns",
    "Beep.Props.SummaryFull.C81_cv_partial",
    "Beep.Props.SummaryFull.C81_cv_from_start_violated",
    "Beep.Props.SummaryFull.C81_cv_never_violated",
    "Beep.Props.SummaryFull.C81_unconfigured"
   ],
   "note": "The CV columns inherit the restriction of C18, the other two cases are proved to go wrong; an infinite efficiency (no charge) is not distinguished from a missing one."
  },
  {
   "property": "C82",
   "status": "partial",
   "theorems": [
    "Beep.Props.SummaryFull.C82_raw_violated",
    "Beep.Props.SummaryFull.C82_columns_partial"
   ],
   "note": "Violated: summarize_cycles adds the column time_since_cycle_start to raw_data and discards the result of drop. Proved: every other column is unchanged."
  },
  {
   "property": "C83",
   "status": "partial",
   "theorems": [
    "Beep.Props.CoreFeatures.C83_positions",
    "Beep.Props.CoreFeatures.C83_columns_partial",
    "Beep.Props.CoreFeatures.C83_energy_violated",
    "Beep.Props.CoreFeatures.C83_order_violated",
    "Beep.Props.CoreFeatures.C83_subset_violated",
    "Beep.Props.CoreFeatures.C83_accepts"
   ],
   "note": "For every order of the seven statistics the content of every column is characterised (C83_positions) and acceptance is characterised (C83_accepts). With the documented order the columns of the capacities and the charging energy are as labelled. Violated: the discharging energy is computed from the charge steps; another order mislabels; fewer than seven statistics are refused."
  },
  {
   "property": "C84",
   "status": "partial",
   "theorems": [
    "Beep.Props.CoreFeatures.C84_positions",
    "Beep.Props.CoreFeatures.C84_columns_partial",
    "Beep.Props.CoreFeatures.C84_order_violated",
    "Beep.Props.CoreFeatures.C84_changes"
   ],
   "note": "For every order of the statistics the content of every column is characterised (C84_positions, C84_changes); with the documented order all are as labelled. Violated: another order mislabels. The steps are those of get_step_index (C59)."
  },
  {
   "property": "C85",
   "status": "partial",
   "theorems": [
    "Beep.Props.DeltaQ.C85_summary",
    "Beep.Props.DeltaQ.C85_fit",
    "Beep.Props.DeltaQ.C85_curve_partial",
    "Beep.Props.DeltaQ.C85_empty_violated",
    "Beep.Props.DeltaQ.C85_ignored_violated",
    "Beep.Props.DeltaQ.C85_init_violated",
    "Beep.Props.DeltaQ.C85_nominal_violated",
    "Beep.Props.DeltaQ.C85_numbering_violated"
   ],
   "note": "All columns from the summary and the least squares fits (C85_summary, C85_fit) hold in full, by position in the summary. Violated: init_pred_cycle and n_nominal_cycles are ignored, the curves are selected by cycle index and not by position, and without curves six columns are zero instead of missing."
  },
  {
   "property": "C86",
   "status": "partial",
   "theorems": [
    "Beep.Props.DeltaQ.C86_deltaQ_partial",
    "Beep.Props.DeltaQ.C86_validated",
    "Beep.Props.DeltaQ.C86_consecutive_partial",
    "Beep.Props.DeltaQ.C86_deltaQ_violated",
    "Beep.Props.DeltaQ.C86_cycles_violated",
    "Beep.Props.DeltaQ.C86_diagnostic_violated",
    "Beep.Props.DeltaQ.C86_summary_partial",
    "Beep.Props.Exclusion.C86_degradation_violated",
    "Beep.Props.Hppc.C86_hppc_violated",
    "Beep.Props.IntracellFeatures.C86_intracell_violated",
    "Beep.Props.RawImage.C86_image_violated",
    "Beep.Props.RawImage.C86_trajectory_validated",
    "Beep.Props.RawImage.C86_trajectory_violated"
   ],
   "note": "Proved for DeltaQFastCharge when labels are consecutive from 0 or 1 and the two curves have the same number of points, C83_accepts and C90_accepts characterise CycleSummaryStats and the remaining fraction. Violated for each of the five featurizers."
  },
  {
   "property": "C87",
   "status": "partial",
   "theorems": [
    "Beep.Props.DeltaQ.C87_kept",
    "Beep.Props.DeltaQ.C87_repeat_partial",
    "Beep.Props.DeltaQ.C87_stricter_partial",
    "Beep.Props.DeltaQ.C87_unchanged_violated",
    "Beep.Props.DeltaQ.C87_alone_violated"
   ],
   "note": "What remains after the filters is characterised; repeated and stricter filters and the order of filters do no harm. Violated: the diagnostic data of the datapath are replaced by the filtered data, so a featurizer with another filter sees less."
  },
  {
   "property": "C88",
   "status": "partial",
   "theorems": [
    "Beep.Props.MtbContent.C88_accepts_partial",
    "Beep.Props.MtbContent.C88_next_technique_violated",
    "Beep.Props.MtbContent.C88_content"
   ],
   "note": "values are exact up to the digits the target format has (C29); jumps to the first step of the next technique are allowed by the rules but refused"
  },
  {
   "property": "C89",
   "status": "proved",
   "theorems": [
    "Beep.Props.Degradation.C89_fraction",
    "Beep.Props.Degradation.C89_late"
   ],
   "note": "Full. Missing and zero reference values give missing fractions."
  },
  {
   "property": "C90",
   "status": "partial",
   "theorems": [
    "Beep.Props.Degradation.C90_throughput_partial",
    "Beep.Props.Degradation.C90_missing_violated",
    "Beep.Props.Degradation.C90_accepts"
   ],
   "note": "Proved for summaries in order of the cycles without negative values whose last row of the first block has a value; C90_accepts characterises success in full. Violated: if that one value is missing, all normalized throughputs are zero."
  },
  {
   "property": "C91",
   "status": "partial",
   "theorems": [
    "Beep.Props.Threshold.C91_closest_partial",
    "Beep.Props.Threshold.C91_ignored_violated",
    "Beep.Props.Threshold.C91_extrapolate_violated",
    "Beep.Props.Threshold.C91_not_crossed_violated",
    "Beep.Props.Threshold.C91_frame"
   ],
   "note": "Proved for data of one cycle type and metric that have crossed the threshold, without ties along the axis. Violated: cycle type and metric are ignored, extrapolation fails when two rows share the smallest place, and without extrapolation an unbound local variable is reported."
  },
  {
   "property": "C92",
   "status": "partial",
   "theorems": [
    "Beep.Props.Threshold.C92_cut_partial",
    "Beep.Props.Threshold.C92_off",
    "Beep.Props.Threshold.C92_smooth_violated"
   ],
   "note": "The cut is characterised exactly. Violated: the comparison is signed, so that with any positive cutoff a cell without abrupt change is cut from its third row on."
  },
  {
   "property": "C93",
   "status": "partial",
   "theorems": [
    "Beep.Props.Exclusion.C93_include_partial",
    "Beep.Props.Exclusion.C93_short_violated"
   ],
   "note": "Proved for cells that have a summary row for cycle n and whose summary begins before the first diagnostic. Violated: without a row for cycle n the throughput criterion is not applied."
  },
  {
   "property": "C94",
   "status": "partial",
   "theorems": [
    "Beep.Props.Ingest.C94_own_partial",
    "Beep.Props.Ingest.C94_none_partial",
    "Beep.Props.Ingest.C94_other_violated",
    "Beep.Props.Ingest.C94_ambiguous_violated"
   ],
   "note": "Exact rows when no other project's name begins with the project's; the prefix match takes other projects' files or fails otherwise."
  },
  {
   "property": "C95",
   "status": "partial",
   "theorems": [
    "Beep.Props.Ingest.C95_header_partial",
    "Beep.Props.Ingest.C95_lossless",
    "Beep.Props.Ingest.C95_comment_violated",
    "Beep.Props.Ingest.C95_channel_partial",
    "Beep.Props.Ingest.C95_channel_violated"
   ],
   "note": "Lossless for every accepted header; accepted when every label occurs once; a label inside the comment makes the file unreadable, and the channel entry is misspelt when there is no number."
  },
  {
   "property": "C96",
   "status": "partial",
   "theorems": [
    "Beep.Props.Ingest.C96_calendar",
    "Beep.Props.Ingest.C96_utc_partial",
    "Beep.Props.Ingest.C96_midnight",
    "Beep.Props.Ingest.C96_repeated_violated",
    "Beep.Props.Ingest.C96_order_violated",
    "Beep.Props.Ingest.C96_refused"
   ],
   "note": "Right for every instant since 2007 outside the repeated hour at the end of daylight saving time, one hour early in it."
  },
  {
   "property": "C97",
   "status": "partial",
   "theorems": [
    "Beep.Props.Ingest.C97_table_partial",
    "Beep.Props.Ingest.C97_table_violated",
    "Beep.Props.Ingest.C97_types_violated",
    "Beep.Props.Ingest.C97_capacity",
    "Beep.Props.Ingest.C97_energy_violated",
    "Beep.Props.Ingest.C97_cell"
   ],
   "note": "Right when the type groups stand in the order of the names; otherwise some column is read under another's name. Energies are in joules."
  },
  {
   "property": "C98",
   "status": "partial",
   "theorems": [
    "Beep.Props.Transfer.C98_text_partial",
    "Beep.Props.Transfer.C98_upload_partial",
    "Beep.Props.Transfer.C98_empty_violated",
    "Beep.Props.Transfer.C98_list",
    "Beep.Props.Transfer.C98_list_violated",
    "Beep.Props.Transfer.C98_name_partial",
    "Beep.Props.Transfer.C98_collision_violated"
   ],
   "note": "The intended text, names and selection are characterised; the upload happens before the file is flushed, so small objects are empty, and the selection is by prefix."
  },
  {
   "property": "C99",
   "status": "partial",
   "theorems": [
    "Beep.Props.Transfer.C99_fetched_partial",
    "Beep.Props.Transfer.C99_same_name_violated",
    "Beep.Props.Transfer.C99_overwritten_violated",
    "Beep.Props.Transfer.C99_arguments"
   ],
   "note": "Right when all base names differ; otherwise the earlier object is lost."
  },
  {
   "property": "C100",
   "status": "partial",
   "theorems": [
    "Beep.Props.Hppc.C100_resistance_partial",
    "Beep.Props.Hppc.C100_changes_partial",
    "Beep.Props.Hppc.C100_roles_violated"
   ],
   "note": "Proved if the second to fifth step of the cycle are long rest, discharge pulse, short rest and charge pulse, as the code assumes. Fails for the roles found by get_step_index otherwise (C100_roles_violated)."
  },
  {
   "property": "C101",
   "status": "partial",
   "theorems": [
    "Beep.Props.Hppc.C101_ocv_partial",
    "Beep.Props.Hppc.C101_mean_violated",
    "Beep.Props.Hppc.C101_short_violated",
    "Beep.Props.Hppc.C101_order_violated"
   ],
   "note": "Proved for rests in time order whose last ten voltages are equal. Fails otherwise: only the tenth point from the end is read."
  },
  {
   "property": "C102",
   "status": "partial",
   "theorems": [
    "Beep.Props.Hppc.C102_difference_partial",
    "Beep.Props.Hppc.C102_left_out",
    "Beep.Props.Hppc.C102_steps_violated",
    "Beep.Props.Hppc.C102_large_violated",
    "Beep.Props.Hppc.C102_nodes_violated"
   ],
   "note": "Proved for the second HPPC diagnostic and a capacity that never falls. Fails for other positions with other step numbers, for cells above 8 Ah and for noisy capacities."
  },
  {
   "property": "C103",
   "status": "partial",
   "theorems": [
    "Beep.Props.Hppc.C103_slope_partial",
    "Beep.Props.Hppc.C103_short_violated"
   ],
   "note": "Proved for pulses of at least two and rests of at least five rows; shorter ones raise."
  },
  {
   "property": "C104",
   "status": "partial",
   "theorems": [
    "Beep.Props.Hppc.C104_columns_partial",
    "Beep.Props.Hppc.C104_columns_violated",
    "Beep.Props.Hppc.C104_path_violated"
   ],
   "note": "Names proved if the voltage differences can be computed; otherwise their columns are missing. The directory of the user is not used for the diffusion features."
  },
  {
   "property": "C105",
   "status": "partial",
   "theorems": [
    "Beep.Props.RawImage.C105_channel",
    "Beep.Props.RawImage.C105_skipped_violated",
    "Beep.Props.RawImage.C105_filled",
    "Beep.Props.RawImage.C105_impute_violated",
    "Beep.Props.RawImage.C105_capacity_partial",
    "Beep.Props.RawImage.C105_discharged_violated",
    "Beep.Props.RawImage.C105_time",
    "Beep.Props.RawImage.C105_dqdv",
    "Beep.Props.RawImage.C105_other",
    "Beep.Props.RawImage.C105_capacity_filled",
    "Beep.Props.RawImage.C105_made",
    "Beep.Props.RawImage.C105_nothing_violated"
   ],
   "note": "Channels, times, dQ/dV and imputation proved; capacities for steps that only charge or only discharge after a charge. Fails for types without two steps, channels without any value and charge after discharge."
  },
  {
   "property": "C106",
   "status": "partial",
   "theorems": [
    "Beep.Props.RawImage.C106_quantities_partial",
    "Beep.Props.RawImage.C106_missing_violated",
    "Beep.Props.RawImage.C106_column"
   ],
   "note": "Proved for projects with one parameter file (see C94). Runs without parameters pass validation and raise."
  },
  {
   "property": "C107",
   "status": "partial",
   "theorems": [
    "Beep.Props.Intracell.C107_scale",
    "Beep.Props.Intracell.C107_degradation_partial",
    "Beep.Props.Intracell.C107_lower_violated",
    "Beep.Props.Intracell.C107_rows_violated",
    "Beep.Props.Intracell.C107_accepts",
    "Beep.Props.Intracell.C107_accepts_v1"
   ],
   "note": "Version 2 proved for electrodes of 1001 rows; version 1 proved with the place of the lowest voltage instead of the lower limit. Fails otherwise: the place of the lower limit is that of the lowest voltage (C107_lower_violated), and electrodes with another number of rows are refused (C107_rows_violated)."
  },
  {
   "property": "C108",
   "status": "partial",
   "theorems": [
    "Beep.Props.Intracell.C108_zero",
    "Beep.Props.Intracell.C108_refused",
    "Beep.Props.Intracell.C108_profiles",
    "Beep.Props.Intracell.C108_center_partial",
    "Beep.Props.Intracell.C108_center_violated"
   ],
   "note": "Version 2 proved in full. Version 1 counts from the first common row, whatever its voltage is."
  },
  {
   "property": "C109",
   "status": "partial",
   "theorems": [
    "Beep.Props.Intracell.C109_info",
    "Beep.Props.Intracell.C109_capacities",
    "Beep.Props.Intracell.C109_names",
    "Beep.Props.Intracell.C109_refused",
    "Beep.Props.Intracell.C109_reach_violated",
    "Beep.Props.Intracell.C109_v1_partial",
    "Beep.Props.Intracell.C109_v1_violated"
   ],
   "note": "Version 2 proved, except that columns are filled for voltages the cell never reaches. Version 1 proved for electrodes without repeated voltages; with a plateau the state of charge is wrong."
  },
  {
   "property": "C110",
   "status": "partial",
   "theorems": [
    "Beep.Props.IntracellFeatures.C110_candidate_partial",
    "Beep.Props.IntracellFeatures.C110_candidate_refused",
    "Beep.Props.IntracellFeatures.C110_step_violated",
    "Beep.Props.IntracellFeatures.C110_initial_partial",
    "Beep.Props.IntracellFeatures.C110_initial_step_violated",
    "Beep.Props.IntracellFeatures.C110_candidate_v1_partial"
   ],
   "note": "Proved for charges without repeated capacities. Fails for discharges: the step type is ignored."
  },
  {
   "property": "C111",
   "status": "partial",
   "theorems": [
    "Beep.Props.IntracellFeatures.C111_rows",
    "Beep.Props.IntracellFeatures.C111_refused",
    "Beep.Props.IntracellFeatures.C111_names_v1",
    "Beep.Props.IntracellFeatures.C111_names_v2",
    "Beep.Props.IntracellFeatures.C111_pair",
    "Beep.Props.IntracellFeatures.C111_single_violated",
    "Beep.Props.IntracellFeatures.C111_valid",
    "Beep.Props.IntracellFeatures.C111_threshold"
   ],
   "note": "Rows, names and values proved. A single usable diagnostic passes validation but has no features."
  },
  {
   "property": "C112",
   "status": "partial",
   "theorems": [
    "Beep.Props.IntracellFeatures.C112_single",
    "Beep.Props.IntracellFeatures.C112_blend_partial",
    "Beep.Props.IntracellFeatures.C112_start_violated",
    "Beep.Props.IntracellFeatures.C112_default"
   ],
   "note": "Mixture proved for electrodes without repeated voltages. The states of charge do not start at 0 in general, and the default fraction of 1 ignores the first material."
  },
  {
   "property": "C113",
   "status": "partial",
   "theorems": [
    "Beep.Props.IntracellFeatures.C113_metric",
    "Beep.Props.IntracellFeatures.C113_synthetic_violated",
    "Beep.Props.IntracellFeatures.C113_synthetic_partial"
   ],
   "note": "Proved for real data; for synthetic data dQdV minimises the error of dVdQ."
  },
  {
   "property": "C114",
   "status": "partial",
   "theorems": [
    "Beep.Props.TrainCmd.C114_model_partial",
    "Beep.Props.TrainCmd.C114_created_partial",
    "Beep.Props.TrainCmd.C114_thresholds_violated",
    "Beep.Props.TrainCmd.C114_alphas_violated"
   ],
   "note": "Proved without the thresholds of the training data, --l1-ratios and the alphas; the first three never give a model, the alphas are ignored or raise."
  },
  {
   "property": "C115",
   "status": "partial",
   "theorems": [
    "Beep.Props.TrainCmd.C115_status",
    "Beep.Props.TrainCmd.C115_raises",
    "Beep.Props.TrainCmd.C115_errors_violated",
    "Beep.Props.TrainCmd.C115_missing_violated"
   ],
   "note": "Proved for runs that reach their end; training on all data never reports errors, and missing files or unreadable l1 ratios leave no status."
  },
  {
   "property": "C116",
   "status": "partial",
   "theorems": [
    "Beep.Props.TrainCmd.C116_test",
    "Beep.Props.TrainCmd.C116_training",
    "Beep.Props.TrainCmd.C116_targets_unseen",
    "Beep.Props.TrainCmd.C116_leak_violated"
   ],
   "note": "Scores and independence of held-out targets proved; held-out features leak into imputed values."
  },
  {
   "property": "C117",
   "status": "partial",
   "theorems": [
    "Beep.Props.TrainCmd.C117_predictions_partial",
    "Beep.Props.TrainCmd.C117_status",
    "Beep.Props.TrainCmd.C117_name",
    "Beep.Props.TrainCmd.C117_zero_violated",
    "Beep.Props.TrainCmd.C117_chain_partial"
   ],
   "note": "Proved but for the threshold 0, which has no effect; chain proved for training on all data with all targets present."
  },
  {
   "property": "C118",
   "status": "partial",
   "theorems": [
    "Beep.Props.ProtocolCmd.C118_status_partial",
    "Beep.Props.ProtocolCmd.C118_ends",
    "Beep.Props.ProtocolCmd.C118_failures_violated",
    "Beep.Props.ProtocolCmd.C118_raises_violated",
    "Beep.Props.ProtocolCmd.C118_names_partial"
   ],
   "note": "Proved for tables whose rows can all be handled; failed rows are never listed, and when a builder raises no file is listed although earlier ones were written."
  },
  {
   "property": "C119",
   "status": "partial",
   "theorems": [
    "Beep.Props.RunParameters.C119_run_partial",
    "Beep.Props.RunParameters.C119_total_partial",
    "Beep.Props.RunParameters.C119_none_partial",
    "Beep.Props.RunParameters.C119_float_violated",
    "Beep.Props.RunParameters.C119_limits_partial"
   ],
   "note": "Proved for projects with one parameter file (C94); a column of starts with a missing value makes HPPC+RPT runs raise."
  },
  {
   "property": "C120",
   "status": "proved",
   "theorems": [
    "Beep.Props.RunParameters.C120_starts",
    "Beep.Props.RunParameters.C120_expected"
   ],
   "note": "Which cycles diagnostic_starts_at lists, in order and once, by the sets of steps of the cycles; first and expected second diagnostic."
  },
  {
   "property": "C121",
   "status": "partial",
   "theorems": [
    "Beep.Props.WaveProcedure.C121_driving_partial",
    "Beep.Props.WaveProcedure.C121_driving_accepts",
    "Beep.Props.WaveProcedure.C121_loops_violated",
    "Beep.Props.WaveProcedure.C121_name_violated",
    "Beep.Props.WaveProcedure.C121_charging_partial",
    "Beep.Props.WaveProcedure.C121_charging_accepts"
   ],
   "note": "Both kinds proved with an exact characterisation of when a procedure is generated, for paths without a dot before the extension. Violated: the path is cut at its first dot, so a dot in a directory or in the name changes the waveform played; driving procedures ignore the requested cycle counts and the rest time."
  },
  {
   "property": "C122",
   "status": "partial",
   "theorems": [
    "Beep.Props.WaveProcedure.C122_charging_violated",
    "Beep.Props.WaveProcedure.C122_charging_partial"
   ],
   "note": "Charging procedures overwrite three of the caller's parameters (violated); nothing else changes, and generating again gives the same result."
  },
  {
   "property": "C123",
   "status": "partial",
   "theorems": [
    "Beep.Props.FastCharge.C123_schedule_partial",
    "Beep.Props.FastCharge.C123_exact",
    "Beep.Props.FastCharge.C123_missing_violated"
   ],
   "note": "Proved with the exact set of fields that change and the rounding of the numbers, for templates whose CC1 limits have the fields that are read. Violated: a template without such steps is returned unchanged instead of being refused."
  },
  {
   "property": "C124",
   "status": "partial",
   "theorems": [
    "Beep.Props.BiologicFile.C124_header_partial",
    "Beep.Props.BiologicFile.C124_header_violated",
    "Beep.Props.BiologicFile.C124_rows_partial",
    "Beep.Props.BiologicFile.C124_last_column_violated",
    "Beep.Props.BiologicFile.C124_read"
   ],
   "note": "Rows, columns and acceptance proved for exports with distinct column names and without mapping file. Violated: a header on line 200 is not found although 200 lines are searched; a configured column at the end of the header line keeps the line end in its name and the file cannot be read."
  },
  {
   "property": "C125",
   "status": "proved",
   "theorems": [
    "Beep.Props.Construct.C125_made",
    "Beep.Props.Construct.C125_accepted"
   ],
   "note": "Proved with an exact characterisation of acceptance. That the given frame itself is extended in place is not modelled."
  },
  {
   "property": "C126",
   "status": "partial",
   "theorems": [
    "Beep.Props.BiologicMeta.C126_metadata_partial",
    "Beep.Props.BiologicMeta.C126_protocol_partial",
    "Beep.Props.BiologicMeta.C126_channel_partial",
    "Beep.Props.BiologicMeta.C126_channel_violated",
    "Beep.Props.BiologicMeta.C126_colon_violated",
    "Beep.Props.BiologicMeta.C126_apostrophe_violated",
    "Beep.Props.BiologicMeta.C126_backslash_violated",
    "Beep.Props.BiologicMeta.C126_bytes_violated",
    "Beep.Props.BiologicMeta.C126_number_violated",
    "Beep.Props.BiologicMeta.C126_order_violated",
    "Beep.Props.BiologicMeta.C126_path_partial",
    "Beep.Props.BiologicMeta.C126_path_violated",
    "Beep.Props.BiologicMeta.C126_directory_violated"
   ],
   "note": "Proved for files with Windows line ends, channel and comments before the cycle definition, and printable ASCII lines without apostrophe and backslash. Violated: A11 and K1 share an id; a channel without a letter is sixteen less; comments with \" : \", apostrophes, backslashes or bytes that cannot be printed are cut or mangled; with the comments after a later section the protocol includes that section; for .txt exports the metadata are looked for in the export itself, and \".csv\" is replaced in directory names."
  },
  {
   "property": "C127",
   "status": "proved",
   "theorems": [
    "Beep.Props.Pca.C127_table",
    "Beep.Props.Pca.C127_refused"
   ],
   "note": "pivot and concat are modelled on lists; loading the files is not modelled"
  },
  {
   "property": "C128",
   "status": "proved",
   "theorems": [
    "Beep.Props.Pca.C128_components",
    "Beep.Props.Pca.C128_flagged",
    "Beep.Props.Pca.C128_refused",
    "Beep.Props.Pca.C128_training"
   ],
   "note": "the decomposition learned by scikit-learn is a parameter; thresholds of explained variance are taken to be at least 0"
  },
  {
   "property": "C129",
   "status": "proved",
   "theorems": [
    "Beep.Props.Pca.C129_flagged",
    "Beep.Props.Pca.C129_refused",
    "Beep.Props.Pca.C129_training_all",
    "Beep.Props.Pca.C129_wider"
   ],
   "note": "the decomposition and the square root are parameters; the distances that are also returned are not modelled"
  },
  {
   "property": "C130",
   "status": "partial",
   "theorems": [
    "Beep.Props.Eis.C130_read_partial",
    "Beep.Props.Eis.C130_short",
    "Beep.Props.Eis.C130_line_end_violated",
    "Beep.Props.Eis.C130_dictionary_violated"
   ],
   "note": "method and file name keep the end of the line, and no spectrum read from a file can be written as a dictionary; strptime and read_csv are parameters"
  },
  {
   "property": "C131",
   "status": "partial",
   "theorems": [
    "Beep.Props.Eis.C131_listed",
    "Beep.Props.Eis.C131_unchanged",
    "Beep.Props.Eis.C131_found_partial",
    "Beep.Props.Eis.C131_bracket_violated",
    "Beep.Props.Eis.C131_class_violated",
    "Beep.Props.Eis.C131_no_dot_violated",
    "Beep.Props.Eis.C131_text_violated"
   ],
   "note": "fails for brackets in the path (which select by character sets, ranges and their complements), for a run without an extension and for a single path given as text; the order of the files found is that of the directory"
  },
  {
   "property": "C132",
   "status": "proved",
   "theorems": [
    "Beep.Props.IntracellFit.C132_alone",
    "Beep.Props.IntracellFit.C132_refused",
    "Beep.Props.IntracellFit.C132_electrodes",
    "Beep.Props.IntracellFit.C132_vq"
   ],
   "note": "Exact rational arithmetic; electrodes with two places at least."
  },
  {
   "property": "C133",
   "status": "partial",
   "theorems": [
    "Beep.Props.IntracellFit.C133_total",
    "Beep.Props.IntracellFit.C133_below",
    "Beep.Props.IntracellFit.C133_mean",
    "Beep.Props.IntracellFit.C133_zero",
    "Beep.Props.IntracellFit.C133_refused",
    "Beep.Props.IntracellFit.C133_unmatched",
    "Beep.Props.IntracellFit.C133_small_violated"
   ],
   "note": "Distances are real numbers (Mathlib); a constant coordinate gives NaN as in scipy. Violated for dVdQ: measured profiles up to 0.5 Ah have no point left and the error is NaN (C133_small_violated)."
  },
  {
   "property": "C134",
   "status": "proved",
   "theorems": [
    "Beep.Props.IntracellFit.C134_self",
    "Beep.Props.IntracellFit.C134_best"
   ],
   "note": "Error 0 at the parameters of the simulation and no smaller error anywhere; the optimiser itself is not modelled."
  },
  {
   "property": "C135",
   "status": "partial",
   "theorems": [
    "Beep.Props.IntracellSlopes.C135_dvdq",
    "Beep.Props.IntracellSlopes.C135_rising",
    "Beep.Props.IntracellSlopes.C135_gap_violated"
   ],
   "note": "Violated where the emulated profile has no voltage: the smoothing carries the last dVdQ on to these rows (C135_gap_violated). The rest is proved."
  },
  {
   "property": "C136",
   "status": "proved",
   "theorems": [
    "Beep.Props.IntracellSlopes.C136_dqdv",
    "Beep.Props.IntracellSlopes.C136_refused"
   ],
   "note": "For profiles whose voltages rise and are distinct; np.gradient divides by 0 otherwise."
  },
  {
   "property": "C137",
   "status": "proved",
   "theorems": [
    "Beep.Props.MpsFile.C137_numbers",
    "Beep.Props.MpsFile.C137_blocks",
    "Beep.Props.MpsFile.C137_head",
    "Beep.Props.MpsFile.C137_refused"
   ],
   "note": "The file is a list of lines; the safety voltages are texts. Tables are those of C35."
  },
  {
   "property": "C138",
   "status": "partial",
   "theorems": [
    "Beep.Props.Settings.C138_round_trip_partial",
    "Beep.Props.Settings.C138_sequences",
    "Beep.Props.Settings.C138_colon_violated",
    "Beep.Props.Settings.C138_repeated_violated",
    "Beep.Props.Settings.C138_techniques_violated",
    "Beep.Props.Settings.C138_path_violated",
    "Beep.Props.Settings.C138_blank_violated"
   ],
   "note": "C138_round_trip_partial covers files with one technique and distinct line names. General refusal for a colon without blanks (C138_colon_violated); repeated names, several techniques, the values \"blank\" and \"Metadata\" are damaged (witnesses)."
  },
  {
   "property": "C139",
   "status": "partial",
   "theorems": [
    "Beep.Props.MpsFile.C139_file_violated",
    "Beep.Props.MpsFile.C139_body_partial"
   ],
   "note": "Fails for every converted procedure: the header line \"Safety Limits :\" is refused by the reader. Proved in part: below the header, a single technique that is not repeated reads back."
  },
  {
   "property": "C140",
   "status": "partial",
   "theorems": [
    "Beep.Props.IntracellV1.C140_match",
    "Beep.Props.IntracellV1.C140_profiles",
    "Beep.Props.IntracellV1.C140_one_file_violated",
    "Beep.Props.IntracellV1.C140_accepts",
    "Beep.Props.IntracellV1.C140_refused"
   ],
   "note": "The match and its profiles proved for any spline. C140_one_file_violated: with only one of the two files of the second material the initial match ignores that material for every fraction, while the later fits blend it (C107)."
  },
  {
   "property": "C141",
   "status": "partial",
   "theorems": [
    "Beep.Props.IntracellV1.C141_value",
    "Beep.Props.IntracellV1.C141_zero",
    "Beep.Props.IntracellV1.C141_loses",
    "Beep.Props.IntracellV1.C141_refused",
    "Beep.Props.IntracellV1.C141_raises_violated",
    "Beep.Props.IntracellV1.C141_initial",
    "Beep.Props.IntracellV1.C141_initial_raises_violated",
    "Beep.Props.IntracellV1.C141_coverage_violated"
   ],
   "note": "Value, zero and range proved for both errors. Violated: electrodes without a common voltage raise KeyError (C141_raises_violated) or, in the initial fit, ValueError (C141_initial_raises_violated); losing half of the profile lowers the error (C141_coverage_violated)."
  },
  {
   "property": "C142",
   "status": "partial",
   "theorems": [
    "Beep.Props.IntracellV1.C142_dvdq",
    "Beep.Props.IntracellV1.C142_dqdv",
    "Beep.Props.IntracellV1.C142_straight",
    "Beep.Props.IntracellV1.C142_over_v_violated"
   ],
   "note": "Over Q proved. C142_over_v_violated: on every straight rising profile the dVdQ over V is the inverse of the slope, it is dQdV. The smoothed dQdV over V (intracell_analysis.py:191-233) is not modelled."
  },
  {
   "property": "C143",
   "status": "partial",
   "theorems": [
    "Beep.Props.Casts.C143_maccor_names",
    "Beep.Props.Casts.C143_arbin_names",
    "Beep.Props.Casts.C143_neware_names",
    "Beep.Props.Casts.C143_archive_names",
    "Beep.Props.Casts.C143_maccor_accepts",
    "Beep.Props.Casts.C143_maccor_errors",
    "Beep.Props.Casts.C143_maccor_distinct_partial",
    "Beep.Props.Casts.C143_arbin_distinct_partial",
    "Beep.Props.Casts.C143_maccor_distinct_violated"
   ],
   "note": "Names and acceptance hold for all files. Distinctness fails: a Maccor file with both Amps and Current gets two columns called current (every such file); it holds when names differ by more than case and no column already bears another's standard name."
  },
  {
   "property": "C144",
   "status": "partial",
   "theorems": [
    "Beep.Props.Casts.C144_maccor_stored",
    "Beep.Props.Casts.C144_arbin_stored",
    "Beep.Props.Casts.C144_neware_stored",
    "Beep.Props.Casts.C144_archive_stored",
    "Beep.Props.Casts.C144_structured",
    "Beep.Props.Casts.C144_single_error",
    "Beep.Props.Casts.C144_half_error",
    "Beep.Props.Casts.C144_single_exact",
    "Beep.Props.Casts.C144_signed_exact",
    "Beep.Props.Casts.C144_unsigned_exact",
    "Beep.Props.Casts.C144_step_wraps_violated",
    "Beep.Props.Casts.C144_variable_overflow_violated"
   ],
   "note": "Nearest representable number, error bounds and exactness proved for all numbers. A number the type cannot hold is not refused: step numbers outside 16 bits wrap, user variables from 65536 become infinite (both for every such cell)."
  },
  {
   "property": "C145",
   "status": "partial",
   "theorems": [
    "Beep.Props.Casts.C145_arbin_time_partial",
    "Beep.Props.Casts.C145_arbin_time_violated",
    "Beep.Props.Casts.C145_arbin_duration_violated",
    "Beep.Props.Casts.C145_arbin_missing_time"
   ],
   "note": "Fails for every record whose time is not a multiple of 128 s, because datetime is stored in single precision before date_time_iso is computed; durations are multiples of 128 s. Proved instead: off by at most 64 s, order kept; a file with a missing time is refused."
  },
  {
   "property": "C146",
   "status": "partial",
   "theorems": [
    "Beep.Props.Novonix.C146_table_partial",
    "Beep.Props.Novonix.C146_refused",
    "Beep.Props.Novonix.C146_line500_violated",
    "Beep.Props.Novonix.C146_blank_violated"
   ],
   "note": "Proved for column names in lines 1 to 499 without blank lines above them, and that files without column names in these lines are refused. Violated: column names in line 500 are refused although the message speaks of the first 500 lines; one blank line above the column names makes the first record the column names, because read_csv skips blank lines that the search has counted."
  },
  {
   "property": "C147",
   "status": "partial",
   "theorems": [
    "Beep.Props.Novonix.C147_value_partial",
    "Beep.Props.Novonix.C147_colon_violated",
    "Beep.Props.Novonix.C147_crlf_violated",
    "Beep.Props.Novonix.C147_bytes_violated",
    "Beep.Props.Novonix.C147_absent",
    "Beep.Props.Novonix.C147_description_violated"
   ],
   "note": "Proved for values without colons on ordinary lines (printable ASCII without quotes and backslashes) that end with a line feed; entries that no line states are None. Violated: of a value with a colon only the part after the last colon is kept; with Windows line ends every value ends with the two characters \\r; a description that mentions a cell is stored as the name of the cell."
  },
  {
   "property": "C148",
   "status": "partial",
   "theorems": [
    "Beep.Props.RawUnits.C148_neware_units_partial",
    "Beep.Props.RawUnits.C148_neware_test_time",
    "Beep.Props.RawUnits.C148_days_violated",
    "Beep.Props.RawUnits.C148_novonix_partial",
    "Beep.Props.RawUnits.C148_hours_violated",
    "Beep.Props.RawUnits.C148_novonix_temperature"
   ],
   "note": "Neware: proved for step times h:min:s.ms, all columns, gaps and test times; violated for times with days (d:h:min:s), whose days are dropped. Novonix: names and numbers proved; violated for all times, which stay in hours under the names test_time and step_time. Quotients are exact rationals before they are rounded to the column's type."
  },
  {
   "property": "C149",
   "status": "proved",
   "theorems": [
    "Beep.Props.ArbinShell.C149_made",
    "Beep.Props.ArbinShell.C149_steps",
    "Beep.Props.ArbinShell.C149_kept",
    "Beep.Props.ArbinShell.C149_limits",
    "Beep.Props.ArbinShell.C149_order"
   ],
   "note": "The steps are given as compiled (C32, C64); keys of the shell contain no dot, bracket or backslash."
  },
  {
   "property": "C150",
   "status": "partial",
   "theorems": [
    "Beep.Props.IntracellV1.C150_dvdq",
    "Beep.Props.IntracellV1.C150_dqdv",
    "Beep.Props.IntracellV1.C150_refused",
    "Beep.Props.IntracellV1.C150_initial",
    "Beep.Props.IntracellV1.C150_documented_violated"
   ],
   "note": "Proved: both smoothed derivatives for the six (degraded cell) and five (initial match) parameters, and exactly when they are refused. Violated: with the two or three parameters that the initial match documents, offset and fraction are taken for the weights."
  },
  {
   "property": "C151",
   "status": "partial",
   "theorems": [
    "Beep.Props.IntracellV1.C151_dvdq",
    "Beep.Props.IntracellV1.C151_dqdv",
    "Beep.Props.IntracellV1.C151_refused",
    "Beep.Props.IntracellV1.C151_raises_violated",
    "Beep.Props.IntracellV1.C151_gap_violated",
    "Beep.Props.IntracellV1.C151_initial_gap_violated",
    "Beep.Props.IntracellV1.C151_same_partial",
    "Beep.Props.IntracellV1.C151_same_violated"
   ],
   "note": "Proved: the value of the error without gaps, 1000 for unusable weights and for no emulated voltage. Violated: the penalty for gaps is never added (a gap in the first row gives 1000, in the initial match any gap raises), different weights give equal profiles an error, electrodes without a common voltage raise KeyError."
  },
  {
   "property": "C152",
   "status": "partial",
   "theorems": [
    "Beep.Props.RoundTrip.C152_same_partial",
    "Beep.Props.RoundTrip.C152_charge_violated",
    "Beep.Props.RoundTrip.C152_loop_violated",
    "Beep.Props.RoundTrip.C152_current_violated",
    "Beep.Props.RoundTrip.C152_stop_violated",
    "Beep.Props.RoundTrip.C152_advance_violated",
    "Beep.Props.RoundTrip.C152_nested_violated"
   ],
   "note": "Proved for procedures of rest and discharge steps without loops that end at voltages and times with the decimals both formats hold. Violated: charge steps come back as discharge steps, loops without their number of repetitions; procedures with a current end, with an early end or with nested loops are refused on the way back; cycle advances outside loops are lost."
  },
  {
   "property": "C153",
   "status": "partial",
   "theorems": [
    "Beep.Props.Growth.C153_summary_partial",
    "Beep.Props.Growth.C153_duration_violated",
    "Beep.Props.Growth.C153_disappears_violated",
    "Beep.Props.Growth.C153_diagnostic",
    "Beep.Props.Growth.C153_interpolated_partial",
    "Beep.Props.Growth.C153_grid_violated"
   ],
   "note": "All columns but the charge duration are proved unchanged whenever the new data contain a regular cycle; the duration when cycles are numbered from 0 without gaps; the diagnostic summary without restriction; interpolated rows when the axis is not a capacity or the new data stay within the capacities seen. Violated otherwise: with cycles numbered from 1 the duration of the last cycle changes, a partial diagnostic cycle makes the last regular cycle disappear, and a larger capacity changes the grid of all earlier cycles."
  },
  {
   "property": "C154",
   "status": "proved",
   "theorems": [
    "Beep.Props.InterpSym.C154_order",
    "Beep.Props.InterpSym.C154_unit",
    "Beep.Props.InterpSym.C154_axis",
    "Beep.Props.InterpSym.C154_monotone"
   ],
   "note": "proved in full for tables without repeated axis values"
  },
  {
   "property": "C155",
   "status": "partial",
   "theorems": [
    "Beep.Props.AutoLoad.C155_class",
    "Beep.Props.AutoLoad.C155_loads",
    "Beep.Props.AutoLoad.C155_dictionary_partial",
    "Beep.Props.AutoLoad.C155_cycler_violated",
    "Beep.Props.AutoLoad.C155_path_violated"
   ],
   "note": "Files with a class are proved in full; files without one are always loaded as Arbin data (violated), and the record of the path differs between the two (violated)."
  },
  {
   "property": "C156",
   "status": "partial",
   "theorems": [
    "Beep.Props.AutoLoad.C156_object_partial",
    "Beep.Props.AutoLoad.C156_featurizer_violated",
    "Beep.Props.AutoLoad.C156_second_attempt",
    "Beep.Props.AutoLoad.C156_refusal_violated"
   ],
   "note": "Proved for all objects but featurizers, whose heading lacks the file name (violated), and for the second attempt; exceptions other than value, key and attribute errors are passed on (violated). The body of the report is not modelled."
  },
  {
   "property": "C157",
   "status": "partial",
   "theorems": [
    "Beep.Props.DatapathId.C157_identity_partial",
    "Beep.Props.DatapathId.C157_agree",
    "Beep.Props.DatapathId.C157_separator_violated",
    "Beep.Props.DatapathId.C157_none_violated",
    "Beep.Props.DatapathId.C157_structure",
    "Beep.Props.DatapathId.C157_diagnostic",
    "Beep.Props.DatapathId.C157_reload"
   ],
   "note": "Proved for texts without colon other than \"None\"; a colon in the metadata, or the barcode \"None\", makes different runs share an id (violated). Structuring, diagnostic cycles and reloading are proved in full."
  },
  {
   "property": "C158",
   "status": "partial",
   "theorems": [
    "Beep.Props.Retrigger.C158_queued_partial",
    "Beep.Props.Retrigger.C158_import_violated",
    "Beep.Props.Retrigger.C158_empty_violated",
    "Beep.Props.Retrigger.C158_pages_violated",
    "Beep.Props.Retrigger.C158_letter_violated",
    "Beep.Props.Retrigger.C158_companion_violated",
    "Beep.Props.Retrigger.C158_shared_violated"
   ],
   "note": "Proved for at most 1000 objects, keys without the letter x and structured files without companions. Violated: the script imports a class that does not exist; an empty location raises; only 1000 objects are looked at; keys with an x are skipped; a structured file with a companion does not count; files that agree up to the first dot share a structured file."
  },
  {
   "property": "C159",
   "status": "partial",
   "theorems": [
    "Beep.Props.MaccorRun.C159_summary_partial",
    "Beep.Props.MaccorRun.C159_started_violated",
    "Beep.Props.MaccorRun.C159_status_violated"
   ],
   "note": "Proved for every cycle in which a step has ended, if steps end with an ending status. Violated: a cycle that has just begun is counted as complete and reports the discharge of the cycle before; a step that ends without an ending status is not added."
  },
  {
   "property": "C160",
   "status": "partial",
   "theorems": [
    "Beep.Props.LoopRuns.C160_order_partial",
    "Beep.Props.LoopRuns.C160_unique",
    "Beep.Props.LoopRuns.C160_single_loops",
    "Beep.Props.LoopRuns.C160_outer_violated"
   ],
   "note": "Proved: every converted procedure runs the sequences of its steps in the order in which the Maccor cycler measures them, with every loop sequence repeated as often as asked (C160_order_partial, for all nestings, given that a looping technique is run as often as its loop step asks for); both orders are unique (C160_unique); without loops inside loops the Biologic run is exactly the translated Maccor run (C160_single_loops). Violated: the count of an outer loop is not reduced by one, so the Biologic cycler runs more sequences than asked for every nested loop with count at least one (C160_outer_violated). Assumed of the cyclers: a Maccor loop count is the number of runs, a Biologic repeat count the number of returns."
  },
  {
   "property": "C161",
   "status": "partial",
   "theorems": [
    "Beep.Props.SpliceMany.C161_many",
    "Beep.Props.SpliceMany.C161_grouping_partial",
    "Beep.Props.SpliceMany.C161_gap_violated"
   ],
   "note": "Rows, order and monotone counters hold for any number of files (C161_many). The grouping does not matter exactly if every counter that restarts in the second file also restarts in the third (C161_grouping_partial). Violated: a third file that goes on where the second stopped is put at a wrong place when the first two are spliced first (C161_gap_violated)."
  },
  {
   "property": "C162",
   "status": "partial",
   "theorems": [
    "Beep.Props.BiologicTime.C162_iso_partial",
    "Beep.Props.BiologicTime.C162_test_time_partial",
    "Beep.Props.BiologicTime.C162_changed_violated",
    "Beep.Props.BiologicTime.C162_order_violated",
    "Beep.Props.BiologicTime.C162_refused"
   ],
   "note": "date_time_iso is right outside the repeated hour (C162_iso_partial), test_time is right where the clocks were not changed since the first record (C162_test_time_partial). Violated: test_time is a difference of local clock times, so it is one hour too long after the beginning of daylight saving time and one hour too short after its end (C162_changed_violated), where it also decreases (C162_order_violated)."
  },
  {
   "property": "C163",
   "status": "partial",
   "theorems": [
    "Beep.Props.BtmRuns.C163_runs_partial",
    "Beep.Props.BtmRuns.C163_unique",
    "Beep.Props.BtmRuns.C163_count_violated",
    "Beep.Props.BtmRuns.C163_jump_violated"
   ],
   "note": "Proved: every run of an accepted technique is a run of the procedure with the same limits, if the loops of the procedure are set to the counts of the technique, forward jumps avoid the starts of loops and the sequence numbers behind Do steps, and no jump leaves a loop backwards (C163_runs_partial); the run of the procedure is unique (C163_unique). Violated: the counts are stored under \"StepValue\", which Maccor procedures do not have, techniques differing only in counts become the same readable procedure (C163_count_violated); a forward jump can land on the wrong step (C163_jump_violated). Jumps that leave a loop backwards are left out because what the Biologic cycler does with the counter then is not known."
  },
  {
   "property": "C164",
   "status": "partial",
   "theorems": [
    "Beep.Props.Metamorphic.C164_units",
    "Beep.Props.Metamorphic.C164_numbers_partial",
    "Beep.Props.Metamorphic.C164_diagnostic",
    "Beep.Props.Metamorphic.C164_duration_violated"
   ],
   "note": "Proved for every change of clocks and units (C164_units), for the diagnostic summary also with another numbering (C164_diagnostic), and for the cycle summary with another numbering for all columns except charge_duration (C164_numbers_partial). Violated: charge_duration is assigned by position to labels, so numbering the cycles from 1 instead of 0 gives every cycle the duration of the next one (C164_duration_violated)."
  },
  {
   "property": "C165",
   "status": "partial",
   "theorems": [
    "Beep.Props.JsonText.C165_bound",
    "Beep.Props.JsonText.C165_roundtrip",
    "Beep.Props.JsonText.C165_truncated",
    "Beep.Props.JsonText.C165_crash_partial",
    "Beep.Props.JsonText.C165_lost_violated"
   ],
   "note": "Proved for every dictionary, character by character: writing and reading are inverse (C165_roundtrip), every proper beginning of the text of a dictionary is rejected (C165_truncated), and every crash point leaves the old file, an unreadable one or the complete new one (C165_crash_partial); the bound used to define the reader is never reached (C165_bound). Violated: the file is emptied before it is written, so a crash can lose the earlier contents without leaving the new ones (C165_lost_violated). Compressed files, the conversion of floats to literals and the loss of buffered blocks in a power failure are not modelled."
  },
  {
   "property": "C166",
   "status": "partial",
   "theorems": [
    "Beep.Props.Rerun.C166_rerun_partial",
    "Beep.Props.Rerun.C166_inplace_violated",
    "Beep.Props.Rerun.C166_featurize"
   ],
   "note": "Proved for beep structure when no output goes to an input, with anything at all in the half-written output (C166_rerun_partial), and for beep featurize whenever the inputs are as they were (C166_featurize). Violated when an output is given the name of its input (C166_inplace_violated): the kill destroys the input. The status file is written at the end only and is not among the files compared."
  },
  {
   "property": "C167",
   "status": "partial",
   "theorems": [
    "Beep.Props.Running.C167_earlier_partial",
    "Beep.Props.Running.C167_rejected",
    "Beep.Props.Running.C167_append",
    "Beep.Props.Running.C167_early_violated"
   ],
   "note": "Proved: rejections by type, maximum, minimum or monotonicity last (C167_rejected) and accepted pieces make an accepted whole (C167_append). That accepted runs have accepted beginnings is proved for schemas without max_at_least and min_is_below (C167_earlier_partial) and fails with them: for every bound there is a run that is rejected until it reaches the bound (C167_early_violated)."
  },
  {
   "property": "C168",
   "status": "partial",
   "theorems": [
    "Beep.Props.InterpTies.C168_origin",
    "Beep.Props.InterpTies.C168_bounded",
    "Beep.Props.InterpTies.C168_first",
    "Beep.Props.InterpTies.C168_missing",
    "Beep.Props.InterpTies.C168_lost_violated",
    "Beep.Props.InterpTies.C168_order_violated"
   ],
   "note": "origin and range of every value, the row that counts, and exactly when a value is missing, for every table; violated: a reading at the grid point is lost if the first row at the point has a gap and nothing precedes it, and the order of rows with equal axis values matters"
  },
  {
   "property": "C169",
   "status": "partial",
   "theorems": [
    "Beep.Props.Shared.C169_kept_partial",
    "Beep.Props.Shared.C169_separate",
    "Beep.Props.Shared.C169_again",
    "Beep.Props.Shared.C169_construct_violated",
    "Beep.Props.Shared.C169_shared_violated"
   ],
   "note": "for every history: no row, column or value is lost or changed, untouched tables stay as they are, structuring twice adds nothing new; violated: constructing adds imputed columns to the caller's table, and structuring adds the minutes of the cycle to a table that other datapaths share"
  },
  {
   "property": "C170",
   "status": "partial",
   "theorems": [
    "Beep.Props.Shared.C170_reproduced_partial",
    "Beep.Props.Shared.C170_standard",
    "Beep.Props.Shared.C170_given",
    "Beep.Props.Shared.C170_call_again_partial",
    "Beep.Props.Shared.C170_exclude_violated"
   ],
   "note": "exclude_cycles is not recorded (C170_exclude_violated, general). Proved: the record determines the structured data up to the excluded cycles (C170_reproduced_partial), can be passed back as the keyword arguments (C170_call_again_partial), and an accepted call works with the values given by name and the documented ones otherwise (C170_given, C170_standard)."
  },
  {
   "property": "C171",
   "status": "proved",
   "theorems": [
    "Beep.Props.Reorder.C171_summary",
    "Beep.Props.Reorder.C171_diagnostic_summary",
    "Beep.Props.Reorder.C171_cycles",
    "Beep.Props.Reorder.C171_diagnostic_cycles",
    "Beep.Props.Reorder.C171_joined"
   ],
   "note": "All four results are equal as lists, exceptions included (C171_summary, C171_diagnostic_summary, C171_cycles, C171_diagnostic_cycles); C171_joined is the case of parts joined in either order. The raw table is taken to have a fresh index."
  },
  {
   "property": "C172",
   "status": "partial",
   "theorems": [
    "Beep.Props.Unseen.C172_unseen_partial",
    "Beep.Props.Unseen.C172_imputed_violated",
    "Beep.Props.Unseen.C172_gaps_violated"
   ],
   "note": "Proved for samples whose features are all present, or without imputation, as long as the gaps of the matrix stay where they are (C172_unseen_partial, with split and exclusion columns). Violated: gaps of training samples are filled with medians over all samples, test samples included (C172_imputed_violated), and gaps of test samples can remove a feature from the training set (C172_gaps_violated)."
  },
  {
   "property": "C173",
   "status": "partial",
   "theorems": [
    "Beep.Props.SharedMatrix.C173_cells_partial",
    "Beep.Props.SharedMatrix.C173_untouched_partial",
    "Beep.Props.SharedMatrix.C173_splitters_partial",
    "Beep.Props.SharedMatrix.C173_renamed_violated",
    "Beep.Props.SharedMatrix.C173_history_violated"
   ],
   "note": "Violated: C173_renamed_violated (any homogenizing splitter, any matrix with a hashed name) and C173_history_violated (the same experiment gets the features \"a\", \"b\" instead of \"a::F\", \"b::F\"). Proved for all histories: samples, cells and column order stay and names only lose their end; nothing changes when no splitter or prediction homogenizes; homogenizing splitters do not disturb each other."
  },
  {
   "property": "C174",
   "status": "partial",
   "theorems": [
    "Beep.Props.ExitStatus.C174_halt_partial",
    "Beep.Props.ExitStatus.C174_batch_partial",
    "Beep.Props.ExitStatus.C174_interrupted_violated",
    "Beep.Props.ExitStatus.C174_unknown_violated",
    "Beep.Props.ExitStatus.C174_featurize_partial"
   ],
   "note": "Violated: C174_interrupted_violated (any run whose first file is interrupted ends with status 0) and C174_unknown_violated (any list of names with an unknown one). Proved without Ctrl-C: with halt-on-error the status is 0 exactly if every file succeeds and the status file can be written; without it exactly if the arguments fit; beep featurize with known names and halt-on-error ends with 0 exactly if nothing failed. click is modelled as in the pinned version 8.1.7."
  },
  {
   "property": "C175",
   "status": "partial",
   "theorems": [
    "Beep.Props.ExitMore.C175_train_partial",
    "Beep.Props.ExitMore.C175_train_fails_partial",
    "Beep.Props.ExitMore.C175_predict_partial",
    "Beep.Props.ExitMore.C175_reported_partial",
    "Beep.Props.ExitMore.C175_interrupted_violated",
    "Beep.Props.ExitMore.C175_protocol_violated",
    "Beep.Props.ExitMore.C175_protocol_interrupted_violated"
   ],
   "note": "Proved for train and predict when nobody presses Ctrl-C; Ctrl-C ends them with status zero (C175_interrupted_violated), and protocol ends with zero whatever happened to the rows, ignoring halt-on-error (C175_protocol_violated, C175_protocol_interrupted_violated)."
  },
  {
   "property": "C176",
   "status": "proved",
   "theorems": [
    "Beep.LoadCasts.C176_saved",
    "Beep.LoadCasts.C176_again",
    "Beep.LoadCasts.C176_accepts",
    "Beep.LoadCasts.C176_values"
   ],
   "note": "Proved for every saved result and every document; the number types are those of structured_dtypes.yaml as modelled in Casts, and pd.Series(list, dtype) is modelled as lossless or refused for integers."
  },
  {
   "property": "C177",
   "status": "partial",
   "theorems": [
    "Beep.LoadCasts.C177_unchanged_violated",
    "Beep.LoadCasts.C177_unchanged_partial"
   ],
   "note": "Violated: a list under a published column is replaced by a series in the caller's dictionary (C177_unchanged_violated). Proved: names, order, other columns and columns without value stay, and a dictionary that was loaded before stays entirely (C177_unchanged_partial)."
  },
  {
   "property": "C178",
   "status": "partial",
   "theorems": [
    "Beep.IndigoTable.C178_columns_partial",
    "Beep.IndigoTable.C178_stored_index_violated",
    "Beep.IndigoTable.C178_times"
   ],
   "note": "Times and start are proved. Columns are proved for files without a column index or level_0; a file with the old index in it is always refused (C178_stored_index_violated), although the comment in the code says it is handled."
  },
  {
   "property": "C179",
   "status": "partial",
   "theorems": [
    "Beep.MatrixFile.C179_loads_partial",
    "Beep.MatrixFile.C179_empty_violated",
    "Beep.MatrixFile.C179_tuple_violated",
    "Beep.MatrixFile.C179_refused_violated"
   ],
   "note": "Proved for matrices of at least one featurizer with features and without tuples among the hyperparameters (C179_loads_partial). The empty matrix cannot be saved (C179_empty_violated), a tuple changes the names of all columns (C179_tuple_violated) and can make the saved matrix impossible to load (C179_refused_violated). Dictionaries and arrays as hyperparameters are not modelled."
  },
  {
   "property": "C180",
   "status": "proved",
   "theorems": [
    "Beep.StatusMeta.C180_file",
    "Beep.StatusMeta.C180_time",
    "Beep.StatusMeta.C180_order"
   ],
   "note": "C180_file says what is written for every command, C180_time that the text reads as the time, C180_order that the order of the texts is the order of the times. Years of four digits. A command's own entries are opaque here; their content is the subject of the claims about the single commands."
  },
  {
   "property": "C181",
   "status": "proved",
   "theorems": [
    "Beep.SpliceFile.C181_spliced",
    "Beep.SpliceFile.C181_refused"
   ],
   "note": "Column by column, for counters that are numbers in both files (possibly missing) or texts in both. A missing number stays missing, and nothing is moved if the last number of the first file or the first of the second is missing; texts are joined instead of added. Reading and writing of tab separated text is the environment's, so how a number is spelled in the output is not part of the claim."
  },
  {
   "property": "C182",
   "status": "partial",
   "theorems": [
    "Beep.RetriggerArgs.C182_given_partial",
    "Beep.RetriggerArgs.C182_defaults",
    "Beep.RetriggerArgs.C182_quoted",
    "Beep.RetriggerArgs.C182_number_violated",
    "Beep.RetriggerArgs.C182_word_violated"
   ],
   "note": "Proved for the defaults (C182_defaults), quoted texts (C182_quoted) and texts that are no Python literal (C182_given_partial). A text of digits becomes a number (C182_number_violated), and the words True, False and None become Python values (C182_word_violated). What becomes of other Python literals (floats, lists, ...) is left open."
  }
 ]
}