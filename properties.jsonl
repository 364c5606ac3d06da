{"id": "C01", "title": "A diagnostic configuration gives each cycle exactly one diagnostic type", "statement": "DiagnosticConfig(d) succeeds exactly when d has at least one cycle type, no cycle index is listed under two different types and every keyword argument is a str/int/float/bool. When it succeeds, looking a cycle index up by number returns the type under which it was listed, and only listed indices have a type.", "quantifier": "every mapping from type names to finite collections of cycle indices (with repetitions inside a collection), every set of keyword arguments", "why_tests_cant": "The overlap test compares a sum of set sizes with the size of a union; that this is equivalent to pairwise disjointness is a counting fact over arbitrary families, not visible from examples.", "anchors": ["beep/structure/diagnostic.py: DiagnosticConfig.__init__"]}
{"id": "C02", "title": "Derived diagnostic index sets are exactly what the type names say", "statement": "For an accepted DiagnosticConfig, all_ix is the set of all listed indices, and hppc_ix / rpt_ix / reset_ix are exactly the indices whose type name contains hppc / rpt / reset case-insensitively; each is a subset of all_ix.", "quantifier": "every accepted configuration", "why_tests_cant": "Quantifies over all type names and index sets.", "anchors": ["beep/structure/diagnostic.py: DiagnosticConfig.__init__"]}
{"id": "C03", "title": "Step-number matching selects exactly the matching cycles", "statement": "DiagnosticConfig.from_step_numbers labels a cycle with a type iff one of that type's step patterns matches: for 'contains', every step of the pattern occurs in the cycle; for 'exact', the set of steps of the cycle equals the set of the pattern. A cycle that matches two types is refused with ValueError, as is an unknown rule or a missing step_index column.", "quantifier": "every raw table and every matching criteria dictionary", "why_tests_cant": "The 'exact' test is implemented with a length comparison after a containment test; its equivalence with set equality needs a proof for all multisets.", "anchors": ["beep/structure/diagnostic.py: DiagnosticConfig.from_step_numbers"]}
{"id": "C04", "title": "Diagnostic configurations survive serialisation", "statement": "DiagnosticConfig.from_dict(c.as_dict()) yields a configuration with the same cycles, type lookup, derived index sets and parameters as c, for every accepted c.", "quantifier": "every accepted configuration", "why_tests_cant": "Round trip over an infinite domain.", "anchors": ["beep/structure/diagnostic.py: DiagnosticConfig.as_dict, DiagnosticConfig.from_dict"]}
{"id": "C05", "title": "Validation passes iff every rule holds on every row", "statement": "SimpleValidator.validate returns (True, ...) iff for every column of the schema each of its rules (type, max, min, max_at_least, min_is_below, monotonic increasing) holds for the whole column; otherwise it returns False with the message of the first failing rule in a fixed order. A schema column missing from the data is never silently accepted.", "quantifier": "every data table and every schema", "why_tests_cant": "Universally quantified over tables and schemas; early returns and NaN comparisons create paths a sample cannot enumerate.", "anchors": ["beep/structure/validate.py: SimpleValidator.validate"]}
{"id": "C06", "title": "The structured state of a datapath is determined by its history", "statement": "After any sequence of structure / unstructure / set-diagnostic operations on a datapath, is_structured is True iff structure was called since the last unstructure (or construction), and a datapath that is saved with its raw data and loaded again reports the same is_structured value.", "quantifier": "every finite sequence of API calls, including save/load", "why_tests_cant": "Histories are unbounded.", "anchors": ["beep/structure/base.py: BEEPDatapath.structure, unstructure, is_structured, as_dict, from_dict"]}
{"id": "C07", "title": "Saving and loading a datapath with raw data is lossless", "statement": "For a structured datapath, to_json_file(omit_raw=False) followed by from_json_file gives back the same raw data, structured data, structured summary, diagnostic data, metadata, paths (plus the structured path) and structuring parameters, and the result can be saved again; the default save (omit_raw=True) gives an object that keeps all structured frames.", "quantifier": "every datapath state", "why_tests_cant": "Round trip over all states.", "anchors": ["beep/structure/base.py: BEEPDatapath.to_json_file, from_json_file, as_dict, from_dict, StructuringDecorators"]}
{"id": "C08", "title": "Operations that need structured (or non-legacy) data refuse otherwise", "statement": "Every guarded operation raises before doing anything when the datapath is not structured (RuntimeError) or is a legacy load (ValueError), and otherwise behaves exactly like the unguarded operation; assigning a diagnostic that is not a DiagnosticConfig raises TypeError and leaves the datapath unchanged.", "quantifier": "every state and every guarded call", "why_tests_cant": "All states reachable by any history.", "anchors": ["beep/structure/base.py: StructuringDecorators.must_be_structured, must_not_be_legacy, BEEPDatapath.diagnostic"]}
{"id": "C09", "title": "Every step of every cycle is either charge or discharge, never both or neither", "statement": "For every cycle the rows selected as charge rows and those selected as discharge rows partition the rows of the cycle by whole steps: each step of the cycle is in exactly one of the two, and no row is lost or duplicated.", "quantifier": "every raw table", "why_tests_cant": "Partition over arbitrary tables and interleaved step indices.", "anchors": ["beep/structure/base.py: BEEPDatapath.iterate_steps_in_cycle, step_is_chg_state, interpolate_step"]}
{"id": "C10", "title": "A step that only charges is classified as charge and one that only discharges as discharge", "statement": "step_is_chg_state returns True for a step whose charge capacity rises while its discharge capacity stays flat, and False in the opposite case; when both rise the larger rise decides; a step in which neither changes, or both rise alike, gets the configured default.", "quantifier": "every step table", "why_tests_cant": "The outlier and NaN handling makes the decision depend on data-dependent branches.", "anchors": ["beep/structure/base.py: step_is_chg_state"]}
{"id": "C11", "title": "Interpolation returns the requested grid and never leaves the data", "statement": "interpolate_df on a field range [a,b] with a != b and resolution n >= 2 returns n rows whose axis values are exactly the n evenly spaced points from a to b inclusive, in ascending order (a single-point range gives a single row); at every grid point lying between two measured axis values the value is the linear interpolation of the bracketing measurements, so it never leaves the range spanned by the measurements and reproduces measured points exactly.", "quantifier": "every table with distinct axis values, every range and every resolution", "why_tests_cant": "Holds for all tables; floating examples cannot show the bound.", "anchors": ["beep/structure/base.py: interpolate_df"]}
{"id": "C12", "title": "Interpolated data contain exactly the requested cycles", "statement": "interpolate_step returns rows only for cycles that are in the regular cycles and not excluded, in ascending order of cycle index, with exactly `resolution` rows for each step of the requested type that has at least two rows (the axis range of the step not being a single point); diagnostic cycles never appear among the interpolated aging cycles; an unknown axis is refused whenever there is a step to interpolate.", "quantifier": "every raw table, every choice of cycles to exclude, every axis", "why_tests_cant": "All tables and all exclusion sets.", "anchors": ["beep/structure/base.py: BEEPDatapath.interpolate_step, interpolate_cycles"]}
{"id": "C13", "title": "Cumulative throughput columns are running sums", "statement": "In the cycle summary the throughput of the k-th row equals the sum of the per-cycle quantity over the first k rows, so throughputs never decrease when capacities and energies are non-negative, and differences of consecutive throughputs give the per-cycle quantity back.", "quantifier": "every raw table", "why_tests_cant": "All tables.", "anchors": ["beep/structure/base.py: BEEPDatapath.summarize_cycles"]}
{"id": "C14", "title": "The charge duration in the summary row of a cycle belongs to that cycle", "statement": "For every cycle c in the summary, charge_duration is the time, within cycle c, from its start until its charge capacity first reaches full_fast_charge * nominal_capacity (undefined if never reached).", "quantifier": "every raw table and parameter choice, in particular tables whose cycle indices do not start at 0 or are not contiguous", "why_tests_cant": "The failure depends on index alignment between intermediate tables; it needs all cycle numberings.", "anchors": ["beep/structure/base.py: BEEPDatapath.summarize_cycles"]}
{"id": "C15", "title": "The trailing cycle is dropped exactly when it is incomplete", "statement": "The summary contains every regular cycle except possibly the last one; the last is dropped iff there is more than one cycle and it fails the completeness rule (voltage spans 3.3 V and discharge exceeds 97% of charge); a one-cycle run is never emptied.", "quantifier": "every raw table", "why_tests_cant": "All tables.", "anchors": ["beep/structure/base.py: BEEPDatapath.summarize_cycles"]}
{"id": "C16", "title": "Cycle life is the first cycle below the threshold", "statement": "get_cycle_life(n, threshold) returns the index of the first cycle whose discharge capacity is below threshold * nominal when the run has fallen to the threshold, and the number of cycles plus one when it has not; it never raises and is monotone in the threshold.", "quantifier": "every summary and threshold", "why_tests_cant": "Boundary equality and recovery after a dip.", "anchors": ["beep/structure/base.py: BEEPDatapath.get_cycle_life"]}
{"id": "C17", "title": "Capacity/cycle tables are consistent", "statement": "capacities_to_cycles gives, for each threshold, the first cycle at which the capacity ratio has fallen below it, lower thresholds never giving an earlier cycle; cycles_to_capacities returns for every requested cycle number exactly the capacity recorded for it, and is defined for every minimum <= maximum and every interval >= 1.", "quantifier": "every summary, every threshold grid, every cycle range", "why_tests_cant": "Grid length arithmetic for all ranges.", "anchors": ["beep/structure/base.py: BEEPDatapath.capacities_to_cycles, cycles_to_capacities"]}
{"id": "C18", "title": "The constant-voltage segment of a charge is a suffix starting where CV starts", "statement": "get_CV_segment_from_charge returns exactly the rows of the charge from the start of the first pair of consecutive records that meet the constant-voltage criterion until the end, and nothing for a charge that never meets it; CV time, final current and CV capacity are computed from those rows.", "quantifier": "every charge table", "why_tests_cant": "Off-by-one at the first row.", "anchors": ["beep/structure/base.py: get_CV_segment_from_charge, get_CV_time, get_CV_current, get_CV_capacity"]}
{"id": "C19", "title": "Pause detection reports the longest gap over the threshold", "statement": "get_max_paused_over_threshold returns the largest time gap between consecutive time-stamped records of a cycle if it exceeds the threshold and 0 otherwise.", "quantifier": "every group of time stamps", "why_tests_cant": "All sequences.", "anchors": ["beep/structure/base.py: get_max_paused_over_threshold"]}
{"id": "C20", "title": "Maccor capacity columns are the per-cycle accumulation of the step quantities", "statement": "In a parsed Maccor file charge_capacity (discharge_capacity, and the energies) at each row equals the sum over the completed steps of the same state earlier in the same cycle plus the running value of the current step; it is reset at a cycle change and contributions of the other state are not counted.", "quantifier": "every Maccor data table", "why_tests_cant": "Accumulation over arbitrary step/cycle sequences, including files that end in the middle of a step.", "anchors": ["beep/structure/maccor.py: MaccorDatapath.quantity_sum"]}
{"id": "C21", "title": "Biologic cycle numbers never decrease and change only where the rules say", "statement": "get_cycle_index returns one number per row, starting at 1 plus the start advance; consecutive rows differ by the loop advance when the loop counter changes, otherwise by the advance listed for the sequence transition when the sequence number changes, otherwise 0.", "quantifier": "every loop/sequence column pair and every rule set", "why_tests_cant": "All data sequences.", "anchors": ["beep/structure/biologic.py: BiologicDatapath.get_cycle_index (CycleTransitionRules)"]}
{"id": "C22", "title": "Cycle rule files round trip", "statement": "Reading back a serialised set of cycle transition (or cycle advancement) rules gives the same rules, for every rule set; rule files that are malformed are rejected rather than misread.", "quantifier": "every rule set", "why_tests_cant": "Infinite domain.", "anchors": ["beep/structure/biologic.py: CycleTransitionRulesSerializer", "beep/protocol/maccor_to_biologic_mb.py: CycleAdvancementRulesSerializer"]}
{"id": "C23", "title": "Cycle numbers of a converted protocol agree with the Maccor cycle counter", "statement": "Running the Biologic protocol obtained from a Maccor procedure and numbering its records with the generated cycle rules gives each record the cycle number the Maccor cycler would have assigned to it, i.e. one plus the number of AdvCycle steps executed so far.", "quantifier": "every Maccor procedure made of measurement steps, AdvCycle and loops, and every number of loop repetitions", "why_tests_cant": "Executions of looping programs are unbounded.", "anchors": ["beep/protocol/maccor_to_biologic_mb.py: MaccorToBiologicMb._create_cycle_advancement_rules, add_cycle_nums_to_csvs", "beep/structure/biologic.py: get_cycle_index"]}
{"id": "C24", "title": "Technique partition covers the procedure", "statement": "The techniques produced from a Maccor procedure are consecutive segments that together contain every step other than the outer loop markers and End exactly once and in order; a procedure with unbalanced, misnumbered or too deeply nested loops is rejected.", "quantifier": "every step list", "why_tests_cant": "All nestings.", "anchors": ["beep/protocol/maccor_to_biologic_mb.py: MaccorToBiologicMb._partition_steps_into_techniques, _create_cycle_advancement_rules, convert"]}
{"id": "C25", "title": "Sequence numbers are consecutive and jumps land on the right step", "statement": "In each converted technique the sequences are numbered 0,1,2,...; every jump (limit goto or loop) targets the first sequence generated for the Maccor step named by the original goto, or the end of the technique; no jump is out of range.", "quantifier": "every technique", "why_tests_cant": "All step lists and goto targets.", "anchors": ["beep/protocol/maccor_to_biologic_mb.py: MaccorToBiologicMb._convert_steps_to_seqs, _convert_step_parts, _create_loop_seq"]}
{"id": "C26", "title": "All requested Biologic limits are written", "statement": "When several sequence mappings are configured (minimum/maximum voltage, range settings), every converted sequence carries all of them.", "quantifier": "every list of mappings and every sequence", "why_tests_cant": "Composition of an arbitrary number of mappings.", "anchors": ["beep/protocol/maccor_to_biologic_mb.py: MaccorToBiologicMb._apply_seq_mappings"]}
{"id": "C27", "title": "Unreachable safety ends are removed and nothing else is", "statement": "With a maximum/minimum voltage/current configured, a step's end entry is removed exactly when it is a comparison on that quantity beyond the configured limit; all other end entries are kept in order. This holds whether a step has no, one or several end entries.", "quantifier": "every step and every limit", "why_tests_cant": "All shapes of the EndEntry element.", "anchors": ["beep/protocol/maccor_to_biologic_mb.py: MaccorToBiologicMb._create_step_end_entry_filter, _apply_step_mappings"]}
{"id": "C28", "title": "Splitting a CC-CV step keeps its end conditions", "statement": "When a step with a voltage or current limit is split in two, the first part ends when the limit is reached or when any of the original end conditions is met, the second part holds the limit and ends on the original end conditions.", "quantifier": "every step with a limit", "why_tests_cant": "All combinations of end entries.", "anchors": ["beep/protocol/maccor_to_biologic_mb.py: MaccorToBiologicMb._split_step"]}
{"id": "C29", "title": "Unit conversion preserves the physical value", "statement": "The value/unit pair written for a voltage, current, power, resistance or time denotes exactly the input value and the unit chosen keeps the mantissa in the intended range; converting back gives the same quantity.", "quantifier": "every decimal value", "why_tests_cant": "Infinite domain with unit boundaries.", "anchors": ["beep/protocol/maccor_to_biologic_mb.py: _convert_volts, _convert_amps, _convert_watts, _convert_ohms, _convert_time", "beep/protocol/biologic_mb_to_maccor.py: _convert_voltage, _convert_current, _convert_power, _convert_resistance, _convert_time"]}
{"id": "C30", "title": "Charge stays charge when converting Biologic to Maccor", "statement": "Each Biologic sequence is converted to a Maccor step of the same kind (Charge, Dischrge or Rest) with the same control mode.", "quantifier": "every sequence", "why_tests_cant": "All sequences.", "anchors": ["beep/protocol/biologic_mb_to_maccor.py: BiologicMbToMaccorProcedure._create_step"]}
{"id": "C31", "title": "Biologic to Maccor conversion numbers steps consistently", "statement": "The converted procedure's steps are numbered 1..n in order, each sequence maps to the step at its recorded position, each loop becomes a matching Do/Loop pair around exactly the looped sequences plus AdvCycle with the same number of repetitions, and every goto names an existing step, the one its sequence became (the Do step when it jumps forward to the start of a loop). Techniques with overlapping loops, or with jumps back over a finished loop or into a loop other than at its start, are refused.", "quantifier": "every list of sequences with non-overlapping loops", "why_tests_cant": "All loop layouts.", "anchors": ["beep/protocol/biologic_mb_to_maccor.py: BiologicMbToMaccorProcedure._create_steps, _stringify_step_num"]}
{"id": "C32", "title": "Maccor end conditions become the same Arbin limits", "statement": "Each Maccor end entry is converted to an Arbin limit on the same quantity with the same threshold; 'Next Step' is used exactly when the goto target is the following step; limit indices of a step are 0,1,2,... without gaps. Each report entry becomes a limit that records, without ending the step, when the same quantity has changed by the value of the report.", "quantifier": "every step", "why_tests_cant": "All end lists.", "anchors": ["beep/protocol/maccor_to_arbin.py: ProcedureToSchedule.compile_to_arbin, convert_end_to_limit, convert_report_to_logging_limit"]}
{"id": "C33", "title": "Arbin loops pair with the right Do", "statement": "Every Maccor Loop step is converted into a counter limit that jumps to the step after the Do that opened that loop.", "quantifier": "every step list with properly nested loops", "why_tests_cant": "All nestings and positions, in particular loops at the very start.", "anchors": ["beep/protocol/maccor_to_arbin.py: ProcedureToSchedule.create_metadata"]}
{"id": "C34", "title": "Arbin schedule files round trip", "statement": "Writing a Schedule with to_file and reading it with from_file gives back the same nested dictionary.", "quantifier": "every schedule whose keys and values respect the file format", "why_tests_cant": "All nestings.", "anchors": ["beep/protocol/arbin.py: Schedule.to_file, from_file, _get_headings"]}
{"id": "C35", "title": "Biologic technique tables round trip", "statement": "Formatting a list of sequences as the fixed-width table and reading the table back gives the same sequences; a value too wide for its column is refused rather than truncated.", "quantifier": "every list of sequences", "why_tests_cant": "All strings.", "anchors": ["beep/protocol/maccor_to_biologic_mb.py: _seqs_to_str", "beep/protocol/biologic_mb_to_maccor.py: _get_seqs", "beep/protocol/biologic.py: Settings.mps_text_to_schedule_dict"]}
{"id": "C36", "title": "Durations written into a procedure are the requested durations", "statement": "The HH:MM:SS end time written for rests, constant-voltage holds, pulses and charge windows denotes the requested number of seconds.", "quantifier": "every requested duration, including a day or more", "why_tests_cant": "All durations.", "anchors": ["beep/protocol/maccor.py: Procedure.insert_charge_regcyclev2, insert_discharge_regcyclev2, insert_hppc_cyclev2"]}
{"id": "C37", "title": "Initial rests are staggered without collision", "statement": "The initial rest of protocol index i is between 3 h and 22 h, is written without wrap-around, and any 96 consecutive protocol indices get pairwise different rests 12 minutes apart.", "quantifier": "every protocol index", "why_tests_cant": "All indices.", "anchors": ["beep/protocol/maccor.py: Procedure.insert_initialrest_regcyclev3"]}
{"id": "C38", "title": "Waveform files reproduce the waveform", "statement": "Expanding the (duration, value, state) lines of a generated Maccor waveform gives back the scaled input waveform second by second; consecutive lines differ; the state is charge iff the value is positive; the largest magnitude equals the requested scale.", "quantifier": "every waveform", "why_tests_cant": "All sequences.", "anchors": ["beep/protocol/maccor.py: generate_maccor_waveform_file"]}
{"id": "C39", "title": "Generating one waveform does not change the defaults for the next", "statement": "The output of generate_maccor_waveform_file with the default configuration does not depend on which waveforms were generated earlier in the same process.", "quantifier": "every history of calls", "why_tests_cant": "Histories are unbounded.", "anchors": ["beep/protocol/maccor.py: insert_driving_parametersv1, generate_maccor_waveform_file"]}
{"id": "C40", "title": "Formatting a Maccor procedure only pads", "statement": "The formatted step types, modes, end types and report types are at least 8 characters wide and equal the original after stripping surrounding blanks; operators are padded to 3; everything else is unchanged; formatting twice is the same as once.", "quantifier": "every procedure", "why_tests_cant": "All strings.", "anchors": ["beep/protocol/maccor.py: Procedure._format_maccor, ends_whitespace, reports_whitespace"]}
{"id": "C41", "title": "Splicing two Maccor files keeps counters monotone", "statement": "If the counters of both files are monotone and non-negative, then in the spliced file record number, cycle number, test time and loop counters never decrease, the first file's rows are unchanged, and no row is lost.", "quantifier": "every pair of files", "why_tests_cant": "All pairs of tables.", "anchors": ["beep/utils/splice.py: MaccorSplice.column_increment, splice_operation"]}
{"id": "C42", "title": "Neware test time is monotone and ignores clock resets", "statement": "The test_time derived for a Neware file starts at 0, never decreases and adds exactly the elapsed record time between rows of increasing time.", "quantifier": "every sequence of record times", "why_tests_cant": "All sequences.", "anchors": ["beep/structure/neware.py: NewareDatapath.from_file"]}
{"id": "C43", "title": "Battery Archive step time restarts with each step", "statement": "For every row, step_time is the test time elapsed since the first row of the step the row belongs to.", "quantifier": "every table", "why_tests_cant": "All step sequences including one-row final steps.", "anchors": ["beep/structure/battery_archive.py: BatteryArchiveDatapath.from_file"]}
{"id": "C44", "title": "Novonix discharge columns are measured from the charge of the same cycle", "statement": "For discharge rows of a Novonix file, discharge_capacity (energy) is the cycle's end-of-charge capacity (energy) minus the recorded value; charge rows carry no discharge and vice versa.", "quantifier": "every table", "why_tests_cant": "All cycles including discharge-only ones.", "anchors": ["beep/structure/novonix.py: NovonixDatapath.from_file"]}
{"id": "C45", "title": "A feature matrix has one row per file and one column per feature/featurizer/hyperparameters", "statement": "BEEPFeatureMatrix built from featurizers has exactly one row per distinct structured file and, for each file, exactly the columns of the featurizers applied to that file with their values; joining the same feature of the same featurizer with the same hyperparameters on the same file twice is refused.", "quantifier": "every list of featurizers", "why_tests_cant": "All lists.", "anchors": ["beep/features/base.py: BEEPFeatureMatrix.__init__"]}
{"id": "C46", "title": "Different hyperparameters give different feature columns", "statement": "Two featurizers of the same class with different hyperparameters never share a column name.", "quantifier": "every pair of hyperparameter dictionaries", "why_tests_cant": "Needs all string values.", "anchors": ["beep/features/base.py: BEEPFeatureMatrix.__init__"]}
{"id": "C47", "title": "A featurizer never runs with a partial hyperparameter set", "statement": "Constructing a featurizer with hyperparameters succeeds iff none are given (defaults are used) or all required ones are present; it refuses an unstructured datapath; serialising before features exist is refused; features survive a save/load round trip.", "quantifier": "every class default set and every hyperparameter dictionary", "why_tests_cant": "All dictionaries.", "anchors": ["beep/features/base.py: BEEPFeaturizer.__init__, as_dict, from_dict"]}
{"id": "C48", "title": "Train/test splits never leak", "statement": "BEEPDataSplitter.split gives n_splits datasets; in each, train and test are disjoint and together contain every sample; every sample is in exactly one test set; features and targets have the same samples in the same order; with split columns, samples with the same grouping value are never on both sides.", "quantifier": "every cleaned matrix, every fold assignment, every grouping", "why_tests_cant": "All permutations and groupings.", "anchors": ["beep/prediction/beep_data_splitter.py: BEEPDataSplitter.__init__, split"]}
{"id": "C49", "title": "Cleaning keeps exactly the rows and columns above the thresholds", "statement": "A feature column is kept iff the fraction of samples having it is at least train_feature_drop_nan_thresh, then a sample iff the fraction of kept features it has is at least train_sample_drop_nan_thresh; excluded samples and samples with missing targets never reach the datasets; values that are present are kept and missing ones become the median or mean of the values in the kept samples, so that no feature is missing.", "quantifier": "every matrix and thresholds, for the splitter and for the linear model", "why_tests_cant": "All matrices.", "anchors": ["beep/prediction/beep_data_splitter.py: BEEPDataSplitter.__init__", "beep/model.py: BEEPLinearModelExperiment.__init__"]}
{"id": "C50", "title": "A reloaded splitter equals the saved one", "statement": "BEEPDataSplitter.from_dict(s.as_dict()) has the same samples, features, targets and datasets as s.", "quantifier": "every splitter", "why_tests_cant": "Round trip.", "anchors": ["beep/prediction/beep_data_splitter.py: BEEPDataSplitter.as_dict, from_dict"]}
{"id": "C51", "title": "predict reports exactly the samples it dropped", "statement": "BEEPLinearModelExperiment.predict returns one prediction for every sample having at least the threshold fraction of the training features and lists precisely the other samples as dropped; extra columns in the input do not change the outcome.", "quantifier": "every feature matrix", "why_tests_cant": "All matrices.", "anchors": ["beep/model.py: BEEPLinearModelExperiment.predict"]}
{"id": "C52", "title": "predict does not change its input", "statement": "Calling predict twice on the same feature matrix gives the same answer.", "quantifier": "every feature matrix and model", "why_tests_cant": "Histories of calls.", "anchors": ["beep/model.py: BEEPLinearModelExperiment.predict, _remove_param_hash_from_features"]}
{"id": "C53", "title": "A reloaded model predicts like the saved one", "statement": "BEEPLinearModelExperiment.from_dict(m.as_dict()) gives the same predictions as m on every input.", "quantifier": "every trained experiment, whatever training call produced it", "why_tests_cant": "All training histories.", "anchors": ["beep/model.py: BEEPLinearModelExperiment.as_dict, from_dict, train, train_and_score"]}
{"id": "C54", "title": "Batch structuring accounts for every file and isolates failures", "statement": "beep structure processes every input file whatever happens to the others; each file appears exactly once in the status with an outcome that matches what happened to it; the report's three lists partition the files; with halt-on-error nothing after the first failing file is processed.", "quantifier": "every list of files and every pattern of failures", "why_tests_cant": "All failure patterns.", "anchors": ["beep/cmd.py: structure"]}
{"id": "C55", "title": "Batch structuring writes different outputs for different inputs", "statement": "Two different input files never have their structured output written to the same file.", "quantifier": "every list of input paths", "why_tests_cant": "All path pairs.", "anchors": ["beep/cmd.py: add_suffix, structure"]}
{"id": "C56", "title": "Batch protocol generation accounts for every row", "statement": "generate_protocol_files_from_csv records exactly one success or one failure for each row of the table; the overall result is success iff there is no failure; a failing row does not affect other rows.", "quantifier": "every table and failure pattern", "why_tests_cant": "All failure patterns.", "anchors": ["beep/protocol/generate_protocol.py: generate_protocol_files_from_csv"]}
{"id": "C57", "title": "Reading a nested value just written returns it, and other paths are untouched", "statement": "DashOrderedDict: get_path(p) after set(p, v) returns v; set(p, v) does not change get_path(q) when neither path is a prefix of the other; unset removes exactly p.", "quantifier": "every nested dictionary and pair of paths", "why_tests_cant": "All nested dictionaries.", "anchors": ["beep/utils/__init__.py: DashOrderedDict"]}
{"id": "C58", "title": "File routing is deterministic and total", "statement": "auto_load chooses exactly one datapath class from the file name, by the documented precedence, and raises ValueError exactly when no pattern matches.", "quantifier": "every file name", "why_tests_cant": "All names.", "anchors": ["beep/structure/cli.py: auto_load"]}
{"id": "C59", "title": "Default hyperparameters select the voltage/time windows of a diagnostic consistently", "statement": "get_step_index labels each step of a diagnostic cycle with exactly one role, no two steps share a role, and it raises otherwise.", "quantifier": "every diagnostic cycle table", "why_tests_cant": "All tables.", "anchors": ["beep/features/featurizer_helpers.py: get_step_index"]}
{"id": "C60", "title": "Labelled schedule edits touch exactly the labelled steps", "statement": "Schedule.set_labelled_steps changes the first (or all) steps with the label and nothing else, raises if there is none; set_labelled_limits changes exactly the matching limits of those steps.", "quantifier": "every schedule", "why_tests_cant": "All schedules.", "anchors": ["beep/protocol/arbin.py: Schedule.set_labelled_steps, set_labelled_limits"]}
{"id": "C61", "title": "Procedure edits touch exactly the intended step", "statement": "modify_step_value and set_skip_to_end_diagnostic change exactly the entries that match and leave every other step, end entry and field as it was.", "quantifier": "every procedure", "why_tests_cant": "All procedures.", "anchors": ["beep/protocol/maccor.py: Procedure.modify_step_value, set_skip_to_end_diagnostic"]}
{"id": "C62", "title": "Summary aggregates are the per-cycle extremes of the raw data", "statement": "In a cycle summary the charge and discharge capacities are the maxima of the corresponding raw column over the rows of that cycle; the energies are too, except that a value above the error threshold is reported as missing; the energy efficiency is the ratio of the reported energies.", "quantifier": "every raw table and every cycle in it", "why_tests_cant": "All tables, including missing values.", "anchors": ["beep/structure/base.py: BEEPDatapath.summarize_cycles"]}
{"id": "C63", "title": "Cycle life does not depend on whether the object was saved and reloaded", "statement": "get_cycle_life on an object reloaded from its saved form gives the same cycle as on the object that was saved.", "quantifier": "every summary, threshold and cutoff, including summaries whose cycle numbers are not 0, 1, 2, ...", "why_tests_cant": "All cycle numberings (diagnostic cycles removed).", "anchors": ["beep/structure/base.py: BEEPDatapath.get_cycle_life, as_dict, from_dict"]}
{"id": "C64", "title": "Arbin control values drive the cell as the Maccor step does", "statement": "Every converted charge or discharge step commands the same control as the Maccor step: constant current, rate or voltage, or constant current up to a held voltage, with the same values and the sign of the direction.", "quantifier": "every charge or discharge step that converts", "why_tests_cant": "All modes, units, limits and values.", "anchors": ["beep/protocol/maccor_to_arbin.py: ProcedureToSchedule.compile_to_arbin"]}
{"id": "C65", "title": "Converting the same procedure twice gives the same schedule", "statement": "create_sdu does not change the procedure it converts; calling it again on the same object gives the same schedule.", "quantifier": "every procedure and every number of calls", "why_tests_cant": "Histories of calls on a shared object.", "anchors": ["beep/protocol/maccor_to_arbin.py: ProcedureToSchedule.create_sdu, compile_to_arbin"]}
{"id": "C66", "title": "Inserting parameters keeps the structure of the procedure", "statement": "Every insert function changes only the steps it addresses, and in those only step values, limits and end values: number and order of steps, types, modes, reports, end types, operators and goto steps stay those of the template.", "quantifier": "every template and every set of parameters for which the insertion succeeds", "why_tests_cant": "All templates, parameters and positions.", "anchors": ["beep/protocol/maccor.py: Procedure.insert_charge_regcyclev2, insert_charge_regcyclev3, insert_discharge_regcyclev2, insert_storage_regcyclev2, insert_storage_regcyclev3, insert_initialrest_regcyclev3, insert_reset_cyclev2, insert_hppc_cyclev2, insert_rpt_cyclev2, generate_procedure_regcyclev3"]}
{"id": "C67", "title": "Neware records carry the numbers of the cycle and step they follow", "statement": "When a Neware file is read, the record table has one row per record line, in file order; each row carries the number of the last cycle line before it, the number and internal resistance of the last step line before it, and is otherwise the recorded line. Files with records before any cycle or step line are refused.", "quantifier": "every sequence of lines", "why_tests_cant": "All interleavings of cycle, step and record lines.", "anchors": ["beep/structure/neware.py: NewareDatapath.from_file"]}
{"id": "C68", "title": "Batch featurization accounts for every file and featurizer", "statement": "beep featurize reports each input file exactly once, with one entry per requested featurizer, in order. An entry says what that featurizer does to that file alone: created, refused as invalid (with the reason), or failed (with the traceback). One bad file or featurizer does not affect the others. The feature matrix is made of exactly the features that were created, with the hyperparameters that were requested. Every saved intermediate file holds the features its entry names, and no other file is changed. With halt-on-error the command succeeds only if nothing failed.", "quantifier": "every set of input files, every list of featurizers with hyperparameters, every outcome of every featurizer", "why_tests_cant": "All combinations of files, featurizers, failures and shared state between featurizers.", "anchors": ["beep/cmd.py: featurize", "beep/features/base.py: BEEPFeaturizer, BEEPFeatureMatrix", "beep/features/core.py: HPPCResistanceVoltageFeatures.create_features, DiagnosticSummaryStats.create_features, DeltaQFastCharge.create_features"]}
{"id": "C69", "title": "A generated Maccor procedure commands the requested currents, voltages and repeat counts", "statement": "When a regular cycle (v2 or v3) or a diagnostic is inserted into a template, each addressed step is of the required kind (charge, discharge or rest, current or voltage control) and commands the requested rate times the nominal capacity to the nearest mA (0.1 mA for the reset cycle), is limited and ended by the requested cutoff voltages and currents, and each loop repeats the requested number of times. Later insertions of the same procedure do not disturb earlier ones. A template with another kind of step at an addressed place is refused.", "quantifier": "every template, every set of parameters, every position, every complete generation run", "why_tests_cant": "All templates and all parameter values; interference between insertions at different positions.", "anchors": ["beep/protocol/maccor.py: Procedure.insert_resistance_regcyclev2, insert_charge_regcyclev2, insert_charge_regcyclev3, insert_discharge_regcyclev2, insert_storage_regcyclev2, insert_storage_regcyclev3, insert_reset_cyclev2, insert_hppc_cyclev2, insert_rpt_cyclev2, from_regcyclev2, add_procedure_diagcyclev2, generate_procedure_regcyclev3, generate_procedure_diagcyclev3"]}
{"id": "C70", "title": "A converted Modulo Bat technique keeps its set points, limits and record rules", "statement": "Whenever a Biologic Modulo Bat technique is converted to a Maccor procedure, the step of every sequence that is not a loop holds the same physical quantity (current, voltage, resistance, power, or rest) at the same value; its end entries are exactly the limits of the sequence, in order, each on the same quantity, triggering in the same direction, at the same physical threshold; its report entries are exactly the record rules of the sequence with the same quantity and interval. The only permitted change is a time in milliseconds moving by less than 0.1 ms to a hundredth of a second. A limit, record rule or set point without counterpart, or more than three of them, makes the conversion fail.", "quantifier": "all techniques (any number of sequences, loops, limits, record rules, units and values)", "why_tests_cant": "a wrong unit factor, direction or dropped limit shows only for the unit/quantity/position combination that a test happens to contain; the combinations are unbounded", "anchors": ["beep/protocol/biologic_mb_to_maccor.py:BiologicMbToMaccor._create_step", "beep/protocol/biologic_mb_to_maccor.py:BiologicMbToMaccor._convert_time"]}
{"id": "C71", "title": "A prediction depends only on the model and on the sample", "statement": "The prediction for a sample is the intercept plus the weighted sum of the sample's features, each standardised with the mean and standard deviation of the training samples. The weights are what the estimator learns from the standardised features of the training samples, each paired with its own targets. Which other samples are predicted in the same call makes no difference.", "quantifier": "every training set, every prediction matrix, every sample", "why_tests_cant": "All combinations of samples in a call; missing values in any of them.", "anchors": ["beep/model.py: BEEPLinearModelExperiment.train, predict, train_and_score"]}
{"id": "C72", "title": "An Arbin schedule runs as the Maccor procedure it was made from", "statement": "Whatever the cycler measures during the test, the schedule written by create_sdu passes through the same steps as the procedure, from the start on, with the same loop counters and the same cycle numbers: steps that act on the cell are left under the same conditions to the same steps, loops are repeated as often, and the test ends where the procedure ends.", "quantifier": "every procedure, every sequence of measurements, runs of any length", "why_tests_cant": "All runs of all procedures: which condition fires when depends on the cell.", "anchors": ["beep/protocol/maccor_to_arbin.py: ProcedureToSchedule.create_sdu, create_metadata, compile_to_arbin, convert_end_to_limit, add_blank_limit"]}
{"id": "C73", "title": "Driving waveform files follow the request", "statement": "The file written for a driving profile repeats the power profile the requested number of times, scaled so that its largest magnitude is the requested power, whatever files were generated before. Charge lines are held at the requested charge limit and end just above it; discharge lines are held at the requested discharge cutoff and end just below it. A request without repetition is refused.", "quantifier": "every profile, power, scaling, limits, number of repetitions and history of earlier calls", "why_tests_cant": "tests compare one generated file for one profile; the limits and the scaling must follow the request for every value", "anchors": ["beep/protocol/maccor.py: insert_driving_parametersv1, generate_maccor_waveform_file"]}
{"id": "C74", "title": "Different waveform requests get different file names", "statement": "Two waveform requests that lead to different files get different file names, so that generating one never overwrites the other: this holds for driving profiles (profile, repetitions, power, limits) and for charging waveforms (project, kind, number).", "quantifier": "every pair of driving requests and every pair of charging requests", "why_tests_cant": "a collision needs a particular pair of requests; tests generate one file at a time", "anchors": ["beep/protocol/maccor.py: insert_driving_parametersv1, insert_charging_parametersv1"]}
{"id": "C75", "title": "Step charging waveforms charge at the rate of the window", "statement": "From the state of charge at which a window starts until the one at which it ends, a step charging waveform prescribes the C-rate requested for that window, second by second; the time spent at each state of charge is the time needed at that rate, and the waveform lasts exactly as long as the charge takes. Rates stay within the requested ones, and windows that are out of order are refused.", "quantifier": "every list of rates and window borders, every initial and final state of charge, every second of the waveform", "why_tests_cant": "tests look at the length and the maximum of a few waveforms; the rate must be right at every second for all windows", "anchors": ["beep/utils/waveform.py: RapidChargeWave.get_currents_with_uniform_time_basis, get_input_current_multistep_soc_as_x, get_time_vector_from_c_vs_soc"]}
{"id": "C76", "title": "Charging waveform files prescribe capacity times C-rate", "statement": "The file written for a charging waveform prescribes, second by second, a charge current equal to the nominal capacity times the C-rate of the requested kind of curve (to five decimals), never above the allowed C-rate, held at the requested voltage minus the requested offset; its name is made of project, kind and number and is shorter than 25 characters. A curve above the allowed rate or an unknown kind is refused, and every request in order is accepted.", "quantifier": "every request, every smooth curve, every allowed rate", "why_tests_cant": "tests read back one generated file; scaling and clipping errors show only for other capacities and rates", "anchors": ["beep/protocol/maccor.py: insert_charging_parametersv1, generate_maccor_waveform_file", "beep/utils/waveform.py: RapidChargeWave"]}
{"id": "C77", "title": "Power from speed follows the vehicle model in every unit", "statement": "The power computed from a speed profile is at every row that of a 1500 kg car with the documented rolling resistance and drag at its speed and acceleration, negative when driving and zero at rest, with the times kept. The same motion gives the same powers whether its speeds are given in metres per second, kilometres per hour or miles per hour; other units are refused.", "quantifier": "every speed profile with increasing times, every unit", "why_tests_cant": "tests check a few powers of one file in one unit", "anchors": ["beep/utils/waveform.py: convert_velocity_to_power_waveform"]}
{"id": "C78", "title": "Interpolated aging cycles hold the steps' own data on the promised axes", "statement": "In the interpolated cycle data of a structured test every row belongs to a charge or discharge step (as its step_type says) with at least two raw rows, of a cycle that is neither diagnostic nor excluded. Its axis value is one of the evenly spaced values of the range of the axis requested for that direction: the requested voltages (2.8 V to 3.5 V by default), the smallest to largest capacity of the whole test, or the time span of the step. As soon as a waveform step of a direction occurs in a regular cycle, all steps of that direction are interpolated on test_time. Every other value is the piecewise linear interpolation of the step's own readings, and no qualifying step is lost: each has exactly `resolution` rows. Data are refused exactly if a row of such a step has no value on its axis.", "quantifier": "every raw table, set of diagnostic and excluded cycles, voltage range, resolution and pair of axes", "why_tests_cant": "depends on every table and on how steps of different cycles mix; a fixture shows one file", "anchors": ["beep/structure/base.py: interpolate_cycles, interpolate_step, interpolate_df, step_is_waveform"]}
{"id": "C79", "title": "Interpolated diagnostic cycles hold the data of each run of a step", "statement": "In the interpolated diagnostic data every row belongs to one run of consecutive raw rows with the same step index, in a cycle that the diagnostic configuration lists; it carries the type of the cycle, the step index, the number of the run within its cycle and the rank of the step in its cycle. A run whose voltages span less than v_delta is interpolated on time over its own duration, any other on voltage: over its own voltages in an HPPC cycle, and over v_range (if given) in other cycles. The rows sit at evenly spaced points, all other values are the piecewise linear interpolation of the run's own readings (where no two readings share a point), and the two slopes are those between neighbouring points. No run with a step index is lost or repeated: it has exactly `resolution` rows, unless it spans a single point, and then none. Rows are ordered by cycle, run and time. Data are accepted exactly if every such run has its axis value in all rows and at least one run spans more than a point.", "quantifier": "every raw table, diagnostic configuration, resolution, v_delta and v_range", "why_tests_cant": "depends on how steps repeat within a cycle and on the span of each run; a fixture shows a few cycles of one protocol", "anchors": ["beep/structure/base.py: interpolate_diagnostic_cycles, interpolate_df"]}
{"id": "C80", "title": "Every summary column is computed from the cycle's own rows", "statement": "In the summary row of a cycle dc_internal_resistance is the last resistance recorded in that cycle, date_time_iso the time of its first row, the temperature columns are the maximum, mean and minimum of its temperatures, time_temperature_integrated is the trapezoidal integral of its temperatures over minutes, paused is its longest gap between rows if that exceeds an hour and 0 otherwise, and CV_time, CV_current and CV_capacity describe the constant-voltage segment of its rows with positive current; they are missing if there is none. Without temperature data the temperature columns are absent.", "quantifier": "every raw table, with and without temperatures and diagnostic cycles", "why_tests_cant": "columns are named by position and aligned by label; a slip shows only for some tables", "anchors": ["beep/structure/base.py: BEEPDatapath.__init__, summarize_cycles, get_max_paused_over_threshold, get_CV_segment_from_charge"]}
{"id": "C81", "title": "The diagnostic summary has one correct row per diagnostic cycle", "statement": "summarize_diagnostic returns, in ascending order, exactly one row for each cycle of the data that the diagnostic configuration lists, with the type the configuration gives it. Capacities and energies are the largest of the cycle, the coulombic efficiency is discharge over charge capacity, date, pause and temperatures are those of the cycle, and the CV columns describe the constant-voltage segment of the rows with the lowest step index of the cycle.", "quantifier": "every raw table and every diagnostic configuration", "why_tests_cant": "a fixture has one configuration; rows, types and columns must fit for every table", "anchors": ["beep/structure/base.py: summarize_diagnostic"]}
{"id": "C82", "title": "Structuring leaves the raw data as they were", "statement": "Structuring a datapath does not change its raw data: no column is added, removed or changed.", "quantifier": "every raw table", "why_tests_cant": "tests look at the structured data, not at the raw data afterwards", "anchors": ["beep/structure/base.py: summarize_cycles"]}
{"id": "C83", "title": "CycleSummaryStats columns hold what their labels say", "statement": "CycleSummaryStats with hyperparameters cycle_comp_num = [a, b] and a list of statistics returns, for each quantity (charging/discharging capacity/energy) and each statistic requested, a column <statistic>_<quantity> holding the logarithm of that statistic of the pointwise difference of the quantity between cycle b and cycle a, in the steps of the direction the quantity names. It is computed for every non-empty selection of the seven supported statistics, in every order.", "quantifier": "every interpolated data set, pair of cycles and list of statistics", "why_tests_cant": "a test with the default list sees neither other orders nor whether the rows used are those of the direction in the name", "anchors": ["beep/features/core.py: CycleSummaryStats.create_features, get_summary_statistics"]}
{"id": "C84", "title": "DiagnosticSummaryStats columns hold what their labels say", "statement": "DiagnosticSummaryStats returns for each of six quantities and each statistic the column <statistic>_<quantity>, the logarithm of that statistic of the pointwise difference of the quantity between the diagnostics at the two chosen positions, each in its own charge or discharge step; and for rpt_0.2C, rpt_1C, rpt_2C and four metrics the column diag_sum_diff_<i>_<j>_<type><metric>, the relative change of the metric between the two positions in the diagnostic summary.", "quantifier": "every interpolated diagnostic data set, diagnostic summary, pair of positions and order of the statistics", "why_tests_cant": "labels and values are built in separate lists; a fixture shows one configuration", "anchors": ["beep/features/core.py: DiagnosticSummaryStats.create_features, get_summary_diff"]}
{"id": "C85", "title": "DeltaQFastCharge columns hold what their labels and hyperparameters say", "statement": "The columns of DeltaQFastCharge are the documented functions of the summary and the interpolated discharge curves: capacities, resistances and temperatures of the named cycles, the mean charge time, slope and intercept of the line that fits the discharge capacity best in the sense of least squares from cycle 2 and from mid_pred_cycle to final_pred_cycle, the statistics of the difference of the discharge curves of final_pred_cycle and init_pred_cycle (missing if there are no curves), and the median discharge capacity of the first n_nominal_cycles cycles.", "quantifier": "every summary, interpolated data set, cycle numbering and set of hyperparameters", "why_tests_cant": "tests use one file, numbered from zero, with the default hyperparameters", "anchors": ["beep/features/core.py: DeltaQFastCharge.create_features"]}
{"id": "C86", "title": "Data that pass a featurizer's validation can be featurized", "statement": "If validate of CycleSummaryStats, DiagnosticSummaryStats, DeltaQFastCharge, DiagnosticProperties or ExclusionCriteria accepts a datapath, create_features returns features for it and does not raise.", "quantifier": "every datapath and set of hyperparameters", "why_tests_cant": "the documentation promises that all reasons of failure are tested; a test shows a few", "anchors": ["beep/features/core.py: validate and create_features of CycleSummaryStats, DiagnosticSummaryStats, DeltaQFastCharge, DiagnosticProperties, ExclusionCriteria", "beep/features/featurizer_helpers.py: check_diagnostic_validation"]}
{"id": "C87", "title": "Featurizing leaves the structured data as they were", "statement": "Creating features does not change the datapath, so that the features of one featurizer do not depend on which other featurizers were applied to the same datapath before.", "quantifier": "every datapath, every sequence of featurizers and filters", "why_tests_cant": "each test builds its own datapath and applies one featurizer", "anchors": ["beep/features/core.py: HPPCResistanceVoltageFeatures.create_features, DiagnosticSummaryStats.create_features"]}
{"id": "C88", "title": "Biologic sequences apply, watch and record what the Maccor step asks for", "statement": "After converting a technique, every rest, charge or discharge step is found among the sequences with the same control (CC, CV or rest), the same value and direction; its end conditions become limits on the same quantity with the same comparison and value, its reports become record rules with the same value; a step with a limit becomes two sequences, the first ending at the limit and the second holding it. A technique is converted exactly when every step has a control, at most three expressible end conditions and reports, ends only in the next step, the end of the procedure, a step of the technique behind the last loop marker or the first step of the next technique, every loop step closes an open loop with a whole number of repetitions.", "quantifier": "all lists of Maccor steps, offsets, end step numbers, values, end conditions and reports", "why_tests_cant": "the conversions of single fields, the split of steps and the two passes interact; tests convert a few procedures and compare text", "anchors": ["beep/protocol/maccor_to_biologic_mb.py: MaccorToBiologicMb._convert_step_parts, _split_step, _convert_steps_to_seqs, _create_loop_seq"]}
{"id": "C89", "title": "The remaining fraction compares each diagnostic with the first one", "statement": "get_fractional_quantity_remaining_nx returns exactly one row for each diagnostic cycle of the requested type that is not after the last regular cycle, in the order of the diagnostic summary, and its fractional metric is the metric of that cycle divided by the metric of the first diagnostic cycle; get_fractional_quantity_remaining does the same for the diagnostic cycles after cycle 100.", "quantifier": "every summary, diagnostic summary, metric and cycle type, with missing values", "why_tests_cant": "selection and reference depend on two tables; a fixture shows one pair", "anchors": ["beep/features/featurizer_helpers.py: get_fractional_quantity_remaining, get_fractional_quantity_remaining_nx"]}
{"id": "C90", "title": "Normalized throughput counts what was passed before the diagnostic in units of the first block", "statement": "In each row of get_fractional_quantity_remaining_nx the initial regular throughput is the discharge capacity (or energy) summed over the regular cycles before the first interruption by diagnostics, and the normalized regular and diagnostic throughputs are the sums over the regular and the diagnostic cycles before that diagnostic cycle divided by it. The function succeeds exactly if there is an interruption and a diagnostic of the type to report.", "quantifier": "every summary and diagnostic summary, including missing values", "why_tests_cant": "the running sums depend on the whole history of the cell; tests use complete data", "anchors": ["beep/features/featurizer_helpers.py: get_fractional_quantity_remaining_nx"]}
{"id": "C91", "title": "Threshold features say where the requested metric reaches the threshold", "statement": "DiagnosticProperties reports for each interpolation axis the place at which the requested metric in diagnostics of the requested cycle type comes closest to the threshold along the curve through the measured points (on a grid of 1000 places), a positive number for the first two axes, and the same throughput in absolute units; cells that have not reached the threshold are extrapolated if requested and otherwise refused with the featurization error.", "quantifier": "every frame of remaining fractions with any number of cycle types and metrics, every threshold and set of axes", "why_tests_cant": "tests compare a few numbers for one cell", "anchors": ["beep/features/core.py: DiagnosticProperties.create_features, get_threshold_targets"]}
{"id": "C92", "title": "The kink filter removes only what follows an abrupt change", "statement": "With filter_kinks set, DiagnosticProperties uses the rows before the first abrupt change of the degradation rate (at least the cutoff in size), and all rows if there is none; without it all rows are used.", "quantifier": "every frame and every cutoff", "why_tests_cant": "default is no filter; no test sets it", "anchors": ["beep/features/core.py: DiagnosticProperties.get_threshold_targets"]}
{"id": "C93", "title": "A cell is included exactly if it meets all exclusion criteria", "statement": "ExclusionCriteria sets to_include exactly if the charge throughput at cycle n exceeds the cutoff, the fraction left at the end of the test is below the threshold, the charge throughput at the first diagnostic below the threshold exceeds the cutoff in equivalent full cycles, and, if the first charging current is larger than the second, no cycle up to there begins its constant-voltage phase early.", "quantifier": "every summary, diagnostic summary, interpolated data and set of hyperparameters", "why_tests_cant": "the columns are aligned by position and missing values count as true; tests use cells with all values", "anchors": ["beep/features/core.py: ExclusionCriteria.create_features"]}
{"id": "C94", "title": "A run gets the protocol parameters of its own project and sequence number", "statement": "get_protocol_parameters returns for a file <project>_<number>... exactly the rows with this sequence number of the parameter file of this project, and nothing if the project has no parameter file or no such row.", "quantifier": "every parameter directory and every run file", "why_tests_cant": "depends on which other projects have files in the directory; tests use one directory", "anchors": ["beep/deprecated/parameters_lookup.py: get_project_sequence, get_protocol_parameters"]}
{"id": "C95", "title": "The metadata of a Maccor file are what its header says", "statement": "For every header in which the five labels stand in order, each name is reported with the text between its label and the next one, without surrounding white space, whatever these texts are, and nothing is lost; the channel is the number after the last dot of the file name, and empty if there is none.", "quantifier": "every header line and path", "why_tests_cant": "comments and file names are free text typed by users", "anchors": ["beep/structure/maccor.py: MaccorDatapath.parse_metadata, split_string_by_fields, from_file"]}
{"id": "C96", "title": "Maccor time stamps are converted to the instant at which they were printed", "statement": "For every instant since 2007, converting the date and time that clocks in California show gives this instant in UTC, so that records keep their order; a stamp printed at midnight without a time is converted to midnight; other texts are refused.", "quantifier": "every instant since 2007", "why_tests_cant": "the rules for daylight saving time depend on the calendar; tests use three stamps", "anchors": ["beep/structure/maccor.py: MaccorDatapath.correct_timestamp"]}
{"id": "C97", "title": "Indigo columns keep their names and are given in ampere hours and watt hours", "statement": "Reading an Indigo file gives every column of the saved table under its own name; half cycles with an odd number charge and the others discharge; capacity is the charge in ampere hours, energy is given in watt hours, and both are zero in the other direction; a file with several cells is refused.", "quantifier": "every saved table: any order, types and number of columns", "why_tests_cant": "the order in which columns are stored depends on their types; the test file has one layout", "anchors": ["beep/structure/indigo.py: IndigoDatapath.from_file"]}
{"id": "C98", "title": "Project transfer copies the objects of a project completely under the new name", "statement": "ProjectTransfer transfers exactly the objects of the input project that are not excluded; each new object has the old key and the old contents with the new project name in the file name and in the first line, different objects keep different keys, and nothing of the contents is lost.", "quantifier": "every list of objects, project names and contents", "why_tests_cant": "uploading happens before the file is closed; tests do not look at the uploaded contents", "anchors": ["beep/utils/project_transfer.py: ProjectTransfer.get_list_files, download_and_modify"]}
{"id": "C99", "title": "Files fetched from S3 are structured from their own contents", "statement": "With --s3-bucket, beep structure uses every argument exactly once, from S3 if it is a key of the bucket and otherwise from disk; the local copy of each object holds the contents of this object when it is structured, and no other file is changed.", "quantifier": "every bucket and list of keys", "why_tests_cant": "keys of the same base name in different folders are common; tests fetch one file", "anchors": ["beep/cmd.py: structure"]}
{"id": "C100", "title": "HPPC resistances are those of the pulses asked for", "statement": "For a validated run, the HPPC features report, for each of the nine states of charge, each pulse direction and each time scale (first, 1 ms and final point), the resistance (voltage of the pulse minus last voltage of the rest before it, over the corresponding difference of currents) of that pulse, as relative change against the first HPPC diagnostic.", "quantifier": "every diagnostic data set, every order of its rows, every numbering of steps and step counters, every position of the diagnostic", "why_tests_cant": "the pulse is found by sorting, grouping by counters and positions; tests compare a handful of values of one cell of one protocol", "anchors": ["beep/features/featurizer_helpers.py: res_calc, get_resistance_soc_duration_hppc, get_dr_df", "beep/features/core.py: HPPCResistanceVoltageFeatures"]}
{"id": "C101", "title": "HPPC open circuit voltages are averages at the end of the rests", "statement": "The ocv columns are statistics over the states of charge of the difference between the first HPPC diagnostic and the one asked for of the mean voltage of the last ten points, in time, of the long rest.", "quantifier": "every diagnostic data set, every length and order of rests", "why_tests_cant": "a mean over one point equals the mean over ten for a settled voltage, so values in tests look right", "anchors": ["beep/features/featurizer_helpers.py: get_hppc_ocv_helper, get_hppc_ocv"]}
{"id": "C102", "title": "HPPC voltage differences compare discharges at equal capacity", "statement": "The v_diff columns are statistics of the difference between the voltage of the first HPPC diagnostic, interpolated at the capacities of the one asked for, and the voltage of the latter, during the discharge to the next state of charge of the window asked for.", "quantifier": "every diagnostic data set, every window, every position of the diagnostic, every capacity of the cell", "why_tests_cant": "tests use one cell, the second diagnostic and one window", "anchors": ["beep/features/featurizer_helpers.py: get_v_diff"]}
{"id": "C103", "title": "Diffusion features are slopes of the relaxation after each pulse", "statement": "The diffusion features hold, for each window but the first, the slope of the best line through the last third of the relaxation after the discharge pulse, against the difference of the square roots of the times since begin and end of the pulse.", "quantifier": "every diagnostic data set, number of windows, length of rests and order of rows", "why_tests_cant": "windows, roles of steps and the least squares line depend on the whole data; tests check one column of one cell", "anchors": ["beep/features/featurizer_helpers.py: get_diffusion_coeff, get_diffusion_features"]}
{"id": "C104", "title": "HPPC features have the same columns for every cell", "statement": "Featurizing with the HPPC featurizer gives the same named columns, each once, for every run that passes validation, computed with the protocol parameters of the directory given by the user.", "quantifier": "every run, every hyperparameter setting", "why_tests_cant": "whether columns are left out depends on the data; tests look at the shape of one result", "anchors": ["beep/features/core.py: HPPCResistanceVoltageFeatures", "beep/features/featurizer_helpers.py: get_diffusion_features"]}
{"id": "C105", "title": "Images of interpolated data hold the steps they are named after", "statement": "Each image channel named after a diagnostic position, cycle type, metric and step holds the values of that metric in that step of that cycle: charged capacity and energy while charging and what is left of them while discharging, time since the begin of the step, sum of dQ/dV; with imputation nothing is missing. Every cycle type asked for has its channels.", "quantifier": "every interpolated data set, every list of types, metrics and positions, every pattern of missing values", "why_tests_cant": "patterns of missing values and of steps per cycle are unbounded; tests compare the shape of one result", "anchors": ["beep/features/core.py: RawInterpolatedData"]}
{"id": "C106", "title": "Charging protocol features are the parameters of the run", "statement": "The charging protocol features are the quantities asked for, in that order, of the protocol parameters recorded for the run of the raw file, or of the structured file if no raw file is known; a run that passes validation has them.", "quantifier": "every directory of parameter files, every file name, every list of quantities", "why_tests_cant": "depends on the names of all files of the directory; tests use one directory", "anchors": ["beep/features/core.py: ChargingProtocol", "beep/deprecated/parameters_lookup.py: get_protocol_parameters"]}
{"id": "C107", "title": "Losses imposed on the electrodes of a cell move and stretch their curves as stated", "statement": "Imposing capacities and a lithium offset (or, in version 1, a loss of lithium and losses of active material in percent) on the two pristine electrodes gives both electrodes on 1001 evenly spaced points over their joint range, with the voltage at a point being that of the pristine electrode at the corresponding state of charge. A loss of active material leaves the positive electrode in place where the full cell reaches the upper limit of 4.2 V and the negative one where it is at the lower limit of 2.7 V. Electrode files of any length are accepted.", "quantifier": "all electrode curves, losses, capacities and offsets", "why_tests_cant": "the curves and losses are unbounded numerical inputs chosen by an optimiser", "anchors": ["beep/features/intracell_analysis_v2.py:_impose_electrode_scale", "beep/features/intracell_analysis.py:_impose_degradation"]}
{"id": "C108", "title": "The emulated full cell starts at the lower voltage limit and is compared on the measured range", "statement": "Matching a measured profile counts capacity (state of charge) from the point at which the emulated full cell is at its lower voltage limit, and compares the two profiles on the same 1001 evenly spaced points over the measured range, the emulated voltage being positive minus negative electrode within the limits of 2.7 V and 4.2 V. It fails only if the emulated cell has no voltage within the limits or the measurement none at all.", "quantifier": "all electrode curves, parameters and measured profiles", "why_tests_cant": "the optimiser visits arbitrarily many parameter combinations", "anchors": ["beep/features/intracell_analysis_v2.py:halfcell_degradation_matching_ah", "beep/features/intracell_analysis.py:halfcell_degradation_matching_v3"]}
{"id": "C109", "title": "The electrode report holds voltages and states of charge where the full cell is at the stated voltage", "statement": "For each reported full cell voltage the report holds, under names that say so, the voltage and the state of charge of both electrodes in the row at which the emulated full cell is nearest to this voltage, the state of charge being the fraction of the range in which the electrode has a voltage; the capacities are the widths of the electrodes' ranges and of their common range. Every column is reported once, and a column for a voltage is only filled if the full cell reaches it.", "quantifier": "all pairs of electrode curves", "why_tests_cant": "a test only sees a few curves; plateaus and short ranges select different rows", "anchors": ["beep/features/intracell_analysis_v2.py:get_electrode_info_ah", "beep/features/intracell_analysis.py:get_halfcell_voltages"]}
{"id": "C110", "title": "The profile that is fitted is the measured one of the cycle, the cycle type and the step type asked for", "statement": "The profile of a cycle has 1001 evenly spaced capacities (states of charge) and the voltages of the measured curve of this cycle, of the type and of the step (charge or discharge) asked for, below 4.2 V. The first profile of version 1 is that of the first cycle of the type, scaled from 0 to 100.", "quantifier": "all diagnostic data, cycle types, step types and cycles", "why_tests_cant": "which rows are selected depends on the data and on the arguments", "anchors": ["beep/features/intracell_analysis_v2.py:process_beep_cycle_data_for_candidate_halfcell_analysis_ah", "beep/features/intracell_analysis.py:process_beep_cycle_data_for_candidate_halfcell_analysis", "beep/features/intracell_analysis.py:process_beep_cycle_data_for_initial_halfcell_analysis", "beep/features/intracell_analysis.py:intracell_wrapper_init"]}
{"id": "C111", "title": "Intracell features are the fits of the usable diagnostics under their names", "statement": "The intracell cycle features have one row for each diagnostic of the type whose discharge capacity is above the threshold, in their order, with the values of the fit of this cycle under their names. The intracell features have one row with the values of the first and the second such diagnostic under names with the prefixes diag_0_ and diag_1_. Whatever passes validation has features.", "quantifier": "all diagnostic summaries, thresholds and fits", "why_tests_cant": "the number and order of usable diagnostics varies from cell to cell", "anchors": ["beep/features/intracell_losses.py:IntracellCycles", "beep/features/intracell_losses.py:IntracellFeatures", "beep/features/intracell_losses_v2.py:IntracellCyclesV2", "beep/features/intracell_losses_v2.py:IntracellFeaturesV2"]}
{"id": "C112", "title": "A blended electrode mixes the states of charge of its materials at equal voltages", "statement": "Without a second material the electrode is the first one. Otherwise the state of charge at a voltage is the weighted mean of the states of charge of the two materials, the sign of the fraction selecting the positive or negative second material, on 1001 evenly spaced states of charge from 0 to 100.", "quantifier": "all electrode curves and fractions", "why_tests_cant": "curves and fractions are unbounded numerical inputs", "anchors": ["beep/features/intracell_analysis.py:blend_electrodes", "beep/features/intracell_analysis_v2.py:blend_electrodes"]}
{"id": "C113", "title": "The error type selects the representation whose error is minimised", "statement": "For the error types V-Q, dVdQ and dQdV the fit minimises the error between measured and emulated voltage over capacity, its derivative, and the derivative of capacity over voltage; for real and for synthetic data.", "quantifier": "all error types", "why_tests_cant": "a wrong metric still gives plausible numbers", "anchors": ["beep/features/intracell_analysis_v2.py:_get_error_from_degradation_matching_ah", "beep/features/intracell_analysis_v2.py:_get_error_from_synthetic_fitting_ah"]}
{"id": "C114", "title": "beep train saves the model of the experiment its options ask for", "statement": "If beep train reports a model, the output file holds the trained experiment made from the feature and target matrix with the values of the command line options, and the documented default for every option that is not given; trained on all samples, or on the fraction asked for. Whenever this experiment can be trained and the file written, it is.", "quantifier": "all matrices, option values and file systems", "why_tests_cant": "options combine; a keyword that is never passed or passed under a wrong name only shows for the combination that uses it", "anchors": ["beep/cmd.py:train", "beep/model.py:BEEPLinearModelExperiment"]}
{"id": "C115", "title": "The status of beep train tells what happened", "statement": "The status names the input files with their hashes, reports a model and its path exactly if one was written, an exception exactly if none was, and the errors of the trained model. It is written to the status file whenever --halt-on-error is not given, and no file but the model and the status changes.", "quantifier": "all matrices, options and file systems", "why_tests_cant": "failures can occur at each point of the command", "anchors": ["beep/cmd.py:train", "beep/cmd.py:add_metadata_to_status_json"]}
{"id": "C116", "title": "The test scores of a trained model are those of unseen samples", "statement": "train_and_score divides the samples into training and test samples, trains on the former, and reports for each target RMSE, MAE, R2 and maximum error between the true values and the predictions; of the training samples and of the test samples. Nothing of the test samples influences the trained model.", "quantifier": "all feature and target matrices, splits and estimators", "why_tests_cant": "leaks of test samples into training do not raise and only show in the numbers", "anchors": ["beep/model.py:BEEPLinearModelExperiment.train_and_score", "beep/model.py:BEEPLinearModelExperiment._score_arrays", "beep/model.py:BEEPLinearModelExperiment._train"]}
{"id": "C117", "title": "beep predict writes the predictions of the saved model", "statement": "The output of beep predict holds the predictions that the saved experiment makes for the samples of the feature matrix, with the threshold of the command line in place of its own if one is given. A model made by beep train and read back by beep predict predicts what the trained experiment predicts. Status and output agree, and output names that do not end in .json are refused.", "quantifier": "all saved models, feature matrices and options", "why_tests_cant": "the chain through two files has to hold for every model and every matrix", "anchors": ["beep/cmd.py:predict", "beep/model.py:BEEPLinearModelExperiment.predict"]}
{"id": "C118", "title": "The status of beep protocol accounts for every row of the table", "statement": "beep protocol ends with a status that lists the files it generated as generated, each holding the protocol of its row, and those of rows that failed as not generated, with an exception exactly if not all rows were generated. Without a table or an output directory it changes nothing.", "quantifier": "all tables, templates, output directories and file systems", "why_tests_cant": "rows fail at any position and for any reason, and earlier rows have been written by then", "anchors": ["beep/cmd.py:protocol", "beep/protocol/generate_protocol.py:generate_protocol_files_from_csv"]}
{"id": "C119", "title": "The structuring parameters of a run are those of its project's parameter file", "statement": "For a run with a row in the parameter file of its project, the nominal capacity is that of the row, the voltage range spans the cut-off voltages of all runs of the file, diagnostics are reported exactly for runs with HPPC+RPT diagnostics, and everything else is what was passed. The voltage limits of a diagnostic are those of its parameter set, and 2.7 and 4.2 V without a file.", "quantifier": "all parameter files, runs and arguments", "why_tests_cant": "columns, missing values and column types vary between projects", "anchors": ["beep/deprecated/parameters_lookup.py:determine_structuring_parameters", "beep/deprecated/parameters_lookup.py:get_diagnostic_parameters"]}
{"id": "C120", "title": "Diagnostics of a run are found at the cycles where they begin", "statement": "diagnostic_starts_at lists, each once and in order, the cycles that consist of the steps of the first cycle of the first or of the second diagnostic, and the cycles close to the end of the data from which on the numbers of steps are those of one of these diagnostics. The first cycle, and the one where the second diagnostic is expected, are among them if they are in the data.", "quantifier": "all raw data and all start cycles", "why_tests_cant": "the result depends on the steps of every cycle of a long experiment", "anchors": ["beep/deprecated/parameters_lookup.py:determine_structuring_parameters"]}
{"id": "C121", "title": "Waveform procedures play the given waveform", "statement": "A Maccor procedure generated with a waveform file plays exactly that waveform (by its file name without directory and extension) in place of the two discharges (driving) or of the two first charging stages (charging). The initial rest, the resistance check, the remaining charge and discharge steps, the rests, the cycle counts until the diagnostics and the storage step are as the parameters request, a charging waveform is limited below the cutoff voltage, and every other step is the template's.", "quantifier": "every template, every set of parameters, every protocol index and every path of a waveform file", "why_tests_cant": "Tests use a few rows of one parameter file with file names and directories that contain no dots; the templates they use happen to have the loop counts the rows ask for.", "anchors": ["beep/protocol/maccor.py: Procedure.insert_maccor_waveform, generate_procedure_drivingv1, generate_procedure_chargingv1"]}
{"id": "C122", "title": "Generating a procedure leaves the caller's parameters alone", "statement": "Generating a Maccor procedure from a set of parameters does not change the parameters that were passed, so they can be stored, compared or used for another protocol afterwards.", "quantifier": "every set of parameters, template, waveform and index, whether generation succeeds or fails", "why_tests_cant": "A test compares the procedure, not the argument; aliasing of arguments shows only in later uses.", "anchors": ["beep/protocol/maccor.py: Procedure.generate_procedure_chargingv1"]}
{"id": "C123", "title": "A fast charge schedule carries the requested currents and capacity", "statement": "Schedule.from_fast_charge returns the template schedule in which the first CC1 step charges with the first current, every limit on the charge capacity stopping a CC1 step has the given capacity, and the first CC2 step charges with the second current, each written as a decimal rounded to three places; everything else is the template's. A template without these steps is refused.", "quantifier": "every template and all currents and capacities", "why_tests_cant": "A test compares one set of currents on one template; rounding and formatting depend on the digits of each parameter.", "anchors": ["beep/protocol/arbin.py: Schedule.from_fast_charge, Schedule.set_labelled_steps, Schedule.set_labelled_limits"]}
{"id": "C124", "title": "Biologic exports are read line by line into the right columns", "statement": "BiologicDatapath.from_file takes the separator from the extension, finds the header in the first 200 lines, and returns a table in which row i of every configured column is the field of the i-th data line under the name of that column, as an integer, as a number in the units of beep, or as text; cycle_index is the column of that name or else the cycle number, and data_point counts from 1. Every complete export is read.", "quantifier": "every path, text and configuration of columns", "why_tests_cant": "Tests read a few exports whose header has a fixed order of columns and a fixed place.", "anchors": ["beep/structure/biologic.py: BiologicDatapath.from_file, BiologicDatapath._get_file_type"]}
{"id": "C125", "title": "A new datapath holds what it was given", "statement": "Constructing a datapath keeps the metadata, the paths and all rows and columns of the raw data, adds only columns for temperature and internal resistance, without values, where these are missing, resolves the schema to an existing file, and gives an object that is not structured. Arguments are accepted exactly if all given paths are absolute and the schema can be found.", "quantifier": "all raw data, metadata, paths, schemas and file systems", "why_tests_cant": "Tests construct a few objects; which columns are missing and which files exist varies with every cycler and installation.", "anchors": ["beep/structure/base.py: BEEPDatapath.__init__, IMPUTABLE_COLUMNS"]}
{"id": "C126", "title": "The metadata of a Biologic run are those of its metadata file", "statement": "For an export, channel, barcode and protocol are read from the .mpl file of the same name beside it: the channel id identifies the channel, the barcode is the comment, and two runs have the same protocol digest exactly if the files define the same cycles.", "quantifier": "every path and every text of a metadata file", "why_tests_cant": "Tests read one or two metadata files; comments, channels and the order of sections vary between runs.", "anchors": ["beep/structure/biologic.py: BiologicDatapath.parse_metadata, BiologicDatapath.from_file"]}
{"id": "C127", "title": "Tables of discharges for principal components", "statement": "Pivoting the structured data of a list of files for principal component analysis gives one row for each file and each wanted cycle with a discharge, in the order of the files and, within a file, of the cycles. The columns are the values of the pivot column recorded in those discharges, each once. The entry of a row under a column is the quantity that file recorded there in that discharge, and is missing when there is none. Pivoting is refused exactly when a file records the same value of the pivot column twice in a wanted discharge.", "quantifier": "all lists of files, all structured data, all sets of wanted cycles", "why_tests_cant": "Tests use a few files on the same voltage grid; rows that go to the wrong file or cycle appear only on grids that differ, on missing cycles or on rows out of order.", "anchors": ["beep/features/principal_components.py: pivot_data", "beep/features/principal_components.py: PrincipalComponents.from_interpolated_data"]}
{"id": "C128", "title": "Components needed and outliers by reconstruction", "statement": "The reported number of principal components is the least number that together explain more than the wanted share of the variance, and fitting is refused when all of them do not. A row is an outlier by reconstruction exactly when its mean distance to its reconstruction is more than the threshold times that of every training row. So no training row is an outlier for thresholds of at least one, and for smaller ones some training row is, unless all are reconstructed exactly.", "quantifier": "all fitted decompositions, training data, data and thresholds", "why_tests_cant": "The claims hold for whatever decomposition was learned; tests fit one data set.", "anchors": ["beep/features/principal_components.py: PrincipalComponents.fit", "beep/features/principal_components.py: PrincipalComponents.get_reconstruction_error_outliers"]}
{"id": "C129", "title": "Outliers by decomposition", "statement": "A row is an outlier by decomposition exactly when in some component, among those in which the training data vary, it lies above the upper or below the lower percentile of the training data. The percentages must lie between 0 and 100. With the percentages 100 and 0 no training row is an outlier, and a wider range of percentages never makes a row an outlier that was none.", "quantifier": "all fitted decompositions, training data, data and percentages", "why_tests_cant": "Whitening by mean and standard deviation must not change any comparison, for any data; tests look at one set of quantiles.", "anchors": ["beep/features/principal_components.py: PrincipalComponents.get_pca_decomposition_outliers"]}
{"id": "C130", "title": "Reading impedance spectra", "statement": "An impedance spectrum read from a Maccor file has the table that begins in the eleventh line and, as metadata, the frequency sweep of the second line with the misspelling of circuit put right, the method and file name of the third and fourth lines, the start of the seventh line and the words of the ninth, each without surrounding white space. A spectrum that was read can be written as a dictionary. A file of fewer than nine lines is refused.", "quantifier": "all files, all readers of dates and tables", "why_tests_cant": "Headers vary in spacing and in what they contain; tests read one file.", "anchors": ["beep/structure/maccor.py: MaccorDatapath.MaccorEIS.from_file", "beep/structure/base_eis.py: EIS.as_dict"]}
{"id": "C131", "title": "Loading impedance spectra", "statement": "Loading the spectra of listed paths gives one spectrum per path, in their order, and records the paths; a single path may be given as text. Without paths, the spectra read are those of the files in the run's directory that are named like the run with something more before the extension. When a file cannot be read the error is raised and the datapath keeps the spectra it had.", "quantifier": "all directories, paths of runs, arguments and earlier states of the datapath", "why_tests_cant": "Which names a pattern matches, and what is left after a failure in the middle, cannot be settled by one directory.", "anchors": ["beep/structure/maccor.py: MaccorDatapath.load_eis", "beep/structure/base_eis.py: BEEPDatapathWithEIS"]}
{"id": "C132", "title": "Emulating a cell without a measurement", "statement": "Emulating the full cell of two electrodes without a measured profile (version 2) gives capacities counted from the lowest voltage of the full cell within 2.7 V and 4.2 V, 1001 of them evenly spaced, and at each a voltage within these limits. The electrodes are the same as those of a match with a measured profile. The emulation is refused exactly when the full cell has no voltage within the limits.", "quantifier": "all electrodes on all grids, all capacities, offsets and blends", "why_tests_cant": "The zero of the capacity and the clipping depend on where the voltage of the particular cell crosses the limits.", "anchors": ["beep/features/intracell_analysis_v2.py: halfcell_degradation_matching_ah_no_real", "beep/features/intracell_analysis_v2.py: get_v_over_q_from_degradation_matching_ah_no_real"]}
{"id": "C133", "title": "Error of a fit of electrode capacities", "statement": "The error that the fit of electrode capacities minimises never raises, whatever the parameters: it is a number, or 100 for parameters at which no cell can be emulated. It is the mean, over the measured points, of the standardised distance to the nearest emulated point; every such error is below 90, so parameters that cannot be emulated always lose against those that can. It is 0 exactly when the emulated profile contains every measured point. It is a number for every measured profile.", "quantifier": "all electrodes, all parameters, all measured profiles, all three representations", "why_tests_cant": "The optimiser evaluates the error at parameters nobody has listed; a single one that raises or wins by accident spoils the fit.", "anchors": ["beep/features/intracell_analysis_v2.py: _get_error_from_degradation_matching_ah", "beep/features/intracell_analysis_v2.py: _get_error_from_degradation_matching_v_q", "beep/features/intracell_analysis_v2.py: _get_error_from_degradation_matching_dqdv", "beep/features/intracell_analysis_v2.py: _get_error_from_degradation_matching_dvdq"]}
{"id": "C134", "title": "Refitting a simulated profile", "statement": "Fitting a profile that was simulated from two electrodes has the error 0 at the parameters of the simulation, in every representation, and no parameters have a smaller error.", "quantifier": "all electrodes, all parameters of the simulation, all parameters of the fit", "why_tests_cant": "This is a claim about the minimum over all parameters.", "anchors": ["beep/features/intracell_analysis_v2.py: solve_emulated_degradation", "beep/features/intracell_analysis_v2.py: _get_error_from_synthetic_fitting_ah"]}
{"id": "C135", "title": "Slope of the voltage over the capacity", "statement": "The dVdQ of the measured and of the emulated profile is given at the capacities of the match. It is the slope of the parabola through a row and its neighbours (of the line to the only neighbour at the ends), smoothed by an exponentially weighted mean that loses a factor of 11 from row to row. It is positive everywhere where the voltage rises. A row without a voltage has no dVdQ.", "quantifier": "all electrodes, parameters and measured profiles with voltages at two capacities at least", "why_tests_cant": "Where voltages are missing depends on the parameters of the fit; smoothing carries values over gaps.", "anchors": ["beep/features/intracell_analysis_v2.py: get_dvdq_over_q_from_degradation_matching_ah"]}
{"id": "C136", "title": "Slope of the capacity over the voltage", "statement": "The dQdV of the measured and of the emulated profile is given at 1001 evenly spaced voltages from 2.7 V to 4.2 V. Within the voltages of the profile it is the smoothed slope of the capacity over the voltage, and the capacity is that of the profile. Outside of them dQdV is 0, and the capacity is 0 below and the largest measured one above. It is refused exactly when the emulated profile has no voltage at any measured capacity.", "quantifier": "all electrodes, parameters and measured profiles whose voltages rise with the capacity", "why_tests_cant": "Voltages outside of the profile and gaps depend on the parameters of the fit.", "anchors": ["beep/features/intracell_analysis_v2.py: get_dqdv_over_v_from_degradation_matching_ah"]}
{"id": "C137", "title": "The settings file of a converted procedure is complete and numbered", "statement": "The Biologic settings file written for a Maccor procedure numbers its techniques 1, 2, 3, ... and announces their number in its header; each technique has the table of all fields of its sequences; a technique that the procedure repeats is followed by a technique of its own that goes back to it the same number of times; a field that does not fit its column or is missing makes the conversion fail instead of writing a damaged file.", "quantifier": "every procedure and all sequences", "why_tests_cant": "All procedures, loop structures and field values.", "anchors": ["beep/protocol/maccor_to_biologic_mb.py: MaccorToBiologicMb._technique_to_str, _seqs_to_str, _diagnostic_file_str_from_technique_partitions_post_conversion"]}
{"id": "C138", "title": "A settings file that is read and written again is unchanged", "statement": "Reading a Biologic settings file and writing the result gives the same text; the sequences taken from the file for a conversion to Maccor are the columns of its table, without an empty last one.", "quantifier": "every settings file", "why_tests_cant": "All header lines, techniques and tables.", "anchors": ["beep/protocol/biologic.py: Settings.mps_text_to_schedule_dict, Settings.to_file", "beep/protocol/biologic_mb_to_maccor.py: BiologicMbToMaccorProcedure._get_seqs"]}
{"id": "C139", "title": "The settings file of a converted procedure can be read", "statement": "A settings file that the conversion of a Maccor procedure writes can be read by the settings reader of the package, and the sequences of its techniques are those that were written.", "quantifier": "every procedure and all sequences", "why_tests_cant": "All procedures; both directions of the conversion have to agree on the format.", "anchors": ["beep/protocol/maccor_to_biologic_mb.py: MaccorToBiologicMb.convert", "beep/protocol/biologic.py: Settings.mps_text_to_schedule_dict"]}
{"id": "C140", "title": "The initial match of the electrodes", "statement": "The initial match stretches and moves the positive electrode by the given ratio and offset, puts both electrodes on a common scale of the state of charge on which 0 is where the cell is nearest to the lower voltage limit and 100 the highest state of charge within the limits, and returns, on the same 1001 states of charge from 0 to 100, the measured profile (continued by the voltage limits) and that of the two electrodes within the limits. It accepts electrodes with three common rows within the limits and refuses electrodes without any. It uses the same negative electrode as the later fits.", "quantifier": "all electrodes with distinct states of charge, all ratios, offsets and second-material fractions, all measured profiles and any spline", "why_tests_cant": "All curves, overlaps and parameters.", "anchors": ["beep/features/intracell_analysis.py: IntracellAnalysis.halfcell_initial_matching_v2"]}
{"id": "C141", "title": "The errors of the version 1 fits", "statement": "The error of a fit is the root of the summed squared voltage differences between measured and emulated profile plus a penalty for every measured point without an emulated voltage; it is 0 exactly for a perfect fit; parameters for which the electrodes have no common voltage get an error above that of any parameters that emulate the cell within 3 V, instead of an exception that ends the search; emulating less of the measured profile does not make a fit better.", "quantifier": "all electrodes, measured profiles and parameters", "why_tests_cant": "The claim ranges over all parameters an optimiser may try.", "anchors": ["beep/features/intracell_analysis.py: IntracellAnalysis._get_error_from_degradation_matching, _get_error_from_halfcell_initial_matching, get_V_over_SOC_from_degradation_matching"]}
{"id": "C142", "title": "The derivatives of the initial match", "statement": "For both profiles of the initial match, dVdQ is the slope of the voltage over the state of charge and dQdV the slope of the state of charge over the voltage, at every state of charge and, interpolated, at every voltage.", "quantifier": "all matches, in the case of dQdV with rising voltages", "why_tests_cant": "All profiles and all rows.", "anchors": ["beep/features/intracell_analysis.py: IntracellAnalysis.get_dVdQ_over_Q_from_halfcell_initial_matching, get_dQdV_over_Q_from_halfcell_initial_matching, get_dVdQ_over_V_from_halfcell_initial_matching"]}
{"id": "C143", "title": "Raw columns get their standard names", "statement": "A raw file that is read gives a table with the columns of the file in order, each under its standard name: the one of the conversion table for the column's name in lower case (Neware: as it is), its own name if the table does not list it. Arbin's first column becomes the index and the Battery Archive's room temperature is left out. A Maccor file is accepted exactly when all listed columns are there and every cell has a value in its column's number type. Different columns stay different.", "quantifier": "all files: all column names in any case and order, all cells", "why_tests_cant": "The claim ranges over all headers, including ones no test file has.", "anchors": ["beep/structure/arbin.py: ArbinDatapath.from_file", "beep/structure/maccor.py: MaccorDatapath.from_file", "beep/structure/neware.py: NewareDatapath.from_file", "beep/structure/battery_archive.py: BatteryArchiveDatapath.from_file", "beep/conversion_schemas"]}
{"id": "C144", "title": "Raw and structured numbers are stored as exactly as their type allows", "statement": "Every cell of a typed column is stored as the number of the column's type that is nearest to it (half to even); whole numbers within the type are exact, single precision has a relative error of at most 2^-24; a number the type cannot hold is refused. Columns with gaps (Arbin, Battery Archive) and columns without a type are stored as read. A structured result is refused exactly when a cell has no value in its type.", "quantifier": "all numbers, columns and files", "why_tests_cant": "All numbers, including those at the edges of the types.", "anchors": ["beep/structure/base.py: BEEPDatapath._cast_dtypes", "beep/structure/arbin.py: ArbinDatapath.from_file", "beep/structure/maccor.py: MaccorDatapath.from_file", "beep/conversion_schemas"]}
{"id": "C145", "title": "Arbin records keep their time", "statement": "The time in date_time_iso of an Arbin record is the time the cycler wrote, to a microsecond, so durations computed from it (the charge duration of the summary, pauses) are right; records stay in order.", "quantifier": "all Arbin files with times from 2004 to 2038", "why_tests_cant": "All times; a test compares the stored value with itself.", "anchors": ["beep/structure/arbin.py: ArbinDatapath.from_file", "beep/conversion_schemas/arbin_conversion.yaml", "beep/structure/base.py: BEEPDatapath.summarize_cycles"]}
{"id": "C146", "title": "The table of a Novonix file starts at its column names", "statement": "NovonixDatapath.from_file finds the line with the column names within the first 500 lines of the file, takes its fields as columns and the fields of every line below it that is not blank as rows, in order; a file without such a line is refused with a LookupError.", "quantifier": "all files (lists of lines of bytes), any number of summary lines, blank lines and rows", "why_tests_cant": "Whether the right line is taken depends on everything above it (blank lines, length); a test has one file.", "anchors": ["beep/structure/novonix.py:NovonixDatapath.from_file"]}
{"id": "C147", "title": "The metadata of a Novonix file are the entries of its summary", "statement": "Each entry of the metadata is the value that its line 'label: value' in the summary section states; entries that the summary does not state are None; a line states only the entry of its label.", "quantifier": "all files with a summary section, all labels, all values, both kinds of line ends", "why_tests_cant": "Values may hold colons, other labels, any characters; tests have one export.", "anchors": ["beep/structure/novonix.py:NovonixDatapath.from_file", "beep/conversion_schemas/novonix_conversion.yaml"]}
{"id": "C148", "title": "Raw columns are in the units of beep", "statement": "Whatever the cycler, the published table gives times in seconds, currents in amperes, capacities in ampere hours and energies in watt hours: Neware's step times h:min:s.ms become seconds, its milliamperes, milliampere hours and milliwatt hours are divided by 1000, gaps of its internal resistance are filled with the last value above, or else the first below; Novonix hours become seconds.", "quantifier": "all tables of Neware and Novonix records, all numbers, all clock texts, all patterns of gaps", "why_tests_cant": "A wrong unit or filling shows only in columns and rows that a test inspects; texts and gap patterns are unbounded.", "anchors": ["beep/structure/neware.py:NewareDatapath.from_file", "beep/structure/neware.py:NewareDatapath.step_time", "beep/structure/novonix.py:NovonixDatapath.from_file", "beep/conversion_schemas/novonix_conversion.yaml"]}
{"id": "C149", "title": "The Arbin schedule made from a procedure is the shell schedule with its steps replaced", "statement": "Converting a Maccor procedure to an Arbin schedule with a given shell schedule writes a schedule in which step i is the i-th converted step of the procedure, no step of the shell is left, and the recorded number of steps is the number of steps of the procedure. The global ranges of voltage, temperature and current are written to six decimals, minimum before maximum, and asking for a temperature range turns the temperature limit on. Every other section and entry of the shell, including its safety sections, is unchanged; the steps come in order and the safety sections after them. The conversion fails on a file without a Schedule section.", "quantifier": "every shell schedule (any sections, any number of steps and safety sections, nested to any depth), every list of converted steps, every three ranges", "why_tests_cant": "tests convert two procedures with one shell; a stale step left from a longer shell, an entry lost or a wrong step count shows only for other shells and lengths", "anchors": ["beep/protocol/maccor_to_arbin.py:ProcedureToSchedule.create_sdu"]}
{"id": "C150", "title": "Smoothed derivatives of the version 1 matches", "statement": "For both profiles of a match of version 1, dVdQ is the exponentially weighted mean of the slopes of the voltage over the state of charge at every state of charge, and dQdV that of the state of charge over the voltage at 1001 voltages from 2.7 V to 4.2 V (0 outside the profile's voltages), the weight of the measured profile being the last but one and that of the emulated profile the last of the parameters. They are refused only for weights that are not above 0 and at most 1, or without any emulated voltage. The parameters that the initial match documents are accepted.", "quantifier": "all cells, profiles, parameters and weights", "why_tests_cant": "The mean at a row depends on all rows before it and on gaps; a test has one profile and one weight.", "anchors": ["beep/features/intracell_analysis.py: IntracellAnalysis.get_dQdV_over_V_from_degradation_matching, get_dVdQ_over_SOC_from_degradation_matching, get_dQdV_over_V_from_halfcell_initial_matching"]}
{"id": "C151", "title": "The errors of fits of derivatives", "statement": "The error of a fit of derivatives is the root of the summed squared differences between the measured and the emulated derivative plus a hundredth for every missing emulated one; it is 0 for an emulated profile that is the measured one; parameters that cannot be emulated get the error 1000 instead of an exception.", "quantifier": "all cells, profiles, parameters and weights", "why_tests_cant": "The claim is about all profiles with gaps and all parameters an optimiser may try.", "anchors": ["beep/features/intracell_analysis.py: IntracellAnalysis.get_error_dQdV_over_V_from_degradation_matching, get_error_dVdQ_over_SOC_from_degradation_matching, get_error_dQdV_over_V_from_halfcell_initial_matching, get_error_dVdQ_over_Q_from_halfcell_initial_matching"]}
{"id": "C152", "title": "A Maccor procedure converted to Biologic and back", "statement": "A Maccor procedure that is converted to a Biologic settings file and converted back is the same procedure: the same steps in the same order, each driving the cell alike with the same value, ending at the same conditions, going on at the same step and recording alike, and the same loops and cycle advances.", "quantifier": "all procedures that can be converted to Biologic", "why_tests_cant": "Two converters and the numbering of steps and sequences have to agree for all procedures; tests convert single files in one direction.", "anchors": ["beep/protocol/maccor_to_biologic_mb.py: MaccorToBiologicMb.convert", "beep/protocol/biologic_mb_to_maccor.py: BiologicMbToMaccor.convert"]}
{"id": "C153", "title": "Structuring a run that has gone on", "statement": "When the file of a running test is structured again after more data were recorded, everything reported for the cycles that were over before the new data began is the same as before: the rows and all columns of the cycle summary, the rows of the diagnostic summary, and the interpolated rows.", "quantifier": "all raw data, all additional records whose cycle numbers lie above the cycle in question, all parameters and diagnostic configurations", "why_tests_cant": "A test structures one complete file; that nothing reported earlier depends on what is recorded later is a statement about all pairs of a file and its continuation.", "anchors": ["beep/structure/base.py:BEEPDatapath.summarize_cycles", "beep/structure/base.py:BEEPDatapath.summarize_diagnostic", "beep/structure/base.py:BEEPDatapath.interpolate_cycles"]}
{"id": "C154", "title": "Resampling ignores the order of the rows and the units", "statement": "Resampling a table onto a given range of its axis gives the same result whatever the order of its rows; values recorded in another unit or from another zero are resampled to the same values in that unit; changing the unit of the axis together with the range changes only the axis values of the result; and a column that does not decrease along the axis does not decrease after resampling.", "quantifier": "all tables without repeated axis values, all permutations of the rows, all affine changes of unit, all ranges and numbers of points", "why_tests_cant": "A test compares single tables; invariance under every permutation and every change of unit is a statement about all pairs of tables.", "anchors": ["beep/structure/base.py:interpolate_df"]}
{"id": "C155", "title": "Loading a processed file whatever it holds", "statement": "A processed file is loaded as data of the cycler it came from, with the same contents and with the file recorded as its processed file; files of older versions too. Everything that is not cycler data is refused.", "quantifier": "all contents a JSON file can hold, all paths, all ways decoding can fail", "why_tests_cant": "Tests load a few files of the current version; what happens for each class, for old files and for relative paths is a case distinction over all contents.", "anchors": ["beep/structure/cli.py:auto_load_processed", "beep/structure/base.py:BEEPDatapath.from_json_file"]}
{"id": "C156", "title": "Inspecting a file", "statement": "beep inspect reports what a file holds under a heading that names the kind of object and the file; a file it cannot read is refused with a value error that says so.", "quantifier": "all contents of files, all names, all ways decoding and serialisation can fail", "why_tests_cant": "There is no test for the command; the outcome for every kind of content and failure is a case distinction.", "anchors": ["beep/cmd.py:inspect", "beep/structure/cli.py:auto_load_processed", "beep/structure/cli.py:auto_load"]}
{"id": "C157", "title": "The id of a run", "statement": "Two runs have the same semiunique_id exactly if they agree in barcode, channel, protocol, schema, structured and legacy state and the paths of the raw and the structured file; structuring changes the id whatever the parameters and unstructuring restores it, assigning diagnostic cycles leaves it, and a saved copy keeps it exactly if it is saved with its raw data to the file it is already known to be in.", "quantifier": "all runs, all metadata, all parameters of structuring, all files", "why_tests_cant": "Two runs can only be told apart by a text if no other pair gives the same text, which is a claim about all pairs.", "anchors": ["beep/structure/base.py:BEEPDatapath.semiunique_id", "beep/structure/base.py:BEEPDatapath.structure", "beep/structure/base.py:BEEPDatapath.from_json_file"]}
{"id": "C158", "title": "Queueing raw files once more", "statement": "Retriggering puts an event for exactly those raw files of the project at the location that are larger than a kilobyte, not complete, and have no structured file of the last six hours; there is one event for each, and it describes the file.", "quantifier": "all contents of the input and output buckets, all locations, all times", "why_tests_cant": "Depends on all other objects in both buckets and on how many there are; the script has no test.", "anchors": ["beep/utils/retrigger.py:scan", "beep/utils/__init__.py"]}
{"id": "C159", "title": "What a Maccor cycle charged and discharged", "statement": "In the summary of a Maccor run, the row of a cycle reports as charge and discharge capacity the sums of what its charging and its discharging steps counted, and the same for energies up to the error threshold.", "quantifier": "all Maccor files whose counters do not fall within a step, all parameters of the summary, all cycles reported", "why_tests_cant": "The capacities pass through accumulation over steps and a maximum over the cycle; that the composition gives the sum is a claim about all sequences of steps and cycles, including files read while the test is running.", "anchors": ["beep/structure/maccor.py:MaccorDatapath.from_file", "beep/structure/maccor.py:MaccorDatapath.quantity_sum", "beep/structure/base.py:BEEPDatapath.summarize_cycles"]}
{"id": "C160", "title": "A converted procedure runs its steps in the same order and as often", "statement": "When a Maccor procedure is converted to a Biologic protocol, the Biologic cycler runs exactly the sequences of the steps that the Maccor cycler would measure, in the same order and with the same number of repetitions of every loop, including loops inside loops and loops that follow each other, as long as every step ends by going on to the next one. Both orders are determined by the procedure and the protocol alone.", "quantifier": "all Maccor procedures that convert, all loop counts, all nestings of loops the converter accepts, all configured limits", "why_tests_cant": "A test converts one procedure and compares the file. How often a step runs depends on every combination of loop counts and of places of the loops, and is not visible in the file without running it.", "anchors": ["beep/protocol/maccor_to_biologic_mb.py: MaccorToBiologicMb.convert, _partition_steps_into_techniques, _convert_steps_to_seqs, _create_loop_seq, _technique_to_str"]}
{"id": "C161", "title": "Splicing several Maccor files does not depend on how they are grouped", "statement": "Files spliced one after the other give a file with all their rows in order, the first file unchanged and counters that never decrease. For three consecutive files of one test it does not matter whether the first two or the last two are spliced first, and from one file to the next the counters grow as they do in the files.", "quantifier": "all lists of files with non-negative counters that never decrease, all combinations of counters that restart or go on", "why_tests_cant": "Which counters are moved, and by how much, depends on the last and first values of neighbouring files in each of seven columns; tests splice one pair.", "anchors": ["beep/utils/splice.py: MaccorSplice.column_increment, splice_operation, run_splice"]}
{"id": "C162", "title": "Biologic records keep their time", "statement": "For every Biologic export, whatever the dates it covers: date_time_iso of a record is the instant at which it was written, and its test_time is the time that has passed since the first record, so that test times never decrease; decimals are read as printed; a stamp that is not of the expected form stops the reading.", "quantifier": "all runs since 2007 of any length, all instants of their records, one to six decimals", "why_tests_cant": "Test times are differences of clock times; whether they are right depends on whether the clocks were changed between two records, which no short fixture covers.", "anchors": ["beep/structure/biologic.py: BiologicDatapath.from_file"]}
{"id": "C163", "title": "A converted Modulo Bat technique runs as the original, whichever limits are reached", "statement": "A Modulo Bat technique that is converted to a Maccor procedure runs, on the Maccor cycler, the steps of the same sequences, in the same order and equally often, as the technique does on the Biologic cycler, whichever of the limits of its sequences the cell reaches first.", "quantifier": "all techniques the converter accepts, with any loops and jumps; all runs, that is all lists of the limits that end the sequences one after the other", "why_tests_cant": "a run depends on what the cell does: each sequence can be left by any of its limits, jumps and loops interact, and the number of runs is unbounded; tests compare a few converted files with recorded ones", "anchors": ["beep/protocol/biologic_mb_to_maccor.py:BiologicMbToMaccorProcedure._create_steps", "beep/protocol/biologic_mb_to_maccor.py:BiologicMbToMaccorProcedure._create_step", "beep/protocol/biologic_mb_to_maccor.py:BiologicMbToMaccorProcedure._create_loop_step"]}
{"id": "C164", "title": "The summaries of a run do not depend on clocks, numbering and units", "statement": "Recording the same run with another zero of the test clock, with time stamps moved by a constant, with cycles numbered from another first number, or with capacities and energies (and the parameters that are capacities or energies) in other units, gives the same cycle summary and the same diagnostic summary: cycle numbers and time stamps are moved accordingly, capacities, energies and throughputs are given in the new units, and every other column, in particular efficiencies, durations, pauses, temperatures and the constant voltage columns, keeps its values.", "quantifier": "every raw table with any number of cycles and records, every diagnostic configuration and parameters, every change of clocks, numbering and positive units", "why_tests_cant": "it compares the results of two runs of the code on infinitely many pairs of related inputs; a test fixes one recording", "anchors": ["beep/structure/base.py:BEEPDatapath.summarize_cycles", "beep/structure/base.py:BEEPDatapath.summarize_diagnostic", "beep/structure/base.py:get_CV_segment_from_charge", "beep/structure/base.py:get_max_paused_over_threshold"]}
{"id": "C165", "title": "An interrupted save is never mistaken for a complete one", "statement": "Saving a structured run, a set of features, a feature matrix, a model or a split to an uncompressed JSON file and loading the file gives back the same nested dictionary: every string, number, NaN, list and dictionary. If the process dies at any moment of the save, loading the file afterwards gives what it gave before the save, or fails with an error, or gives exactly the new dictionary; it never gives a part of it. What was saved before is not lost unless the new contents are complete.", "quantifier": "every dictionary, every nesting, every division of the text into the pieces that reach the file, every moment at which the process dies, every earlier file", "why_tests_cant": "a test can kill a process at a handful of moments and compare a handful of dictionaries; the claim is about every prefix of every text", "anchors": ["beep/structure/base.py:BEEPDatapath.to_json_file", "beep/structure/base.py:BEEPDatapath.from_json_file", "beep/features/base.py:BEEPFeaturizer.to_json_file", "beep/features/base.py:BEEPFeaturizer.from_json_file", "beep/features/base.py:BEEPFeatureMatrix.to_json_file", "beep/model.py:BEEPLinearModelExperiment.to_json_file"]}
{"id": "C166", "title": "A killed batch can simply be started again", "statement": "If `beep structure` is killed at any moment (between files, while a file is processed, while an output is half written), any number of times, and started again with the same arguments, it ends exactly as one run that was not killed: the same output files, the same status of every file, the same report. The same holds for `beep featurize` with its intermediate files, its matrix and its report.", "quantifier": "every list of files, every option, every behaviour of the files, every moment at which the command is killed, every number of restarts", "why_tests_cant": "a test kills one batch at one moment; the claim is about every history of kills and restarts", "anchors": ["beep/cmd.py:structure", "beep/cmd.py:featurize"]}
{"id": "C167", "title": "Validating a run that is still going on", "statement": "A run that validation rejects because of a record it contains (type, maximum, minimum, falling column) is not accepted at any later moment. A run that is accepted was acceptable at every earlier moment. If what was recorded so far and what is added are both accepted, the whole is accepted, provided no increasing column falls where they meet.", "quantifier": "every schema, every table of any length with missing values, every continuation", "why_tests_cant": "it compares the verdicts on all beginnings of all recordings; a test fixes one recording and one moment", "anchors": ["beep/structure/validate.py:SimpleValidator.validate", "beep/structure/validate.py:SimpleValidator.check_type"]}
{"id": "C168", "title": "Resampling is sound when axis values repeat", "statement": "When several rows of the table given to interpolate_df share an axis value (a voltage on a plateau, a capacity during a rest), every value in the result is still a reading at that point, a point on the line between two neighbouring readings, or the last reading; it stays within the range of the column; at a grid point that occurs in the table a reading of one of its rows is returned; and the result does not depend on the order of the rows.", "quantifier": "every table, with any repetitions of axis values and any gaps, every range and every resolution", "why_tests_cant": "Ties between rows at the exact grid points are rare in hand-written tables, and the merge, fill and de-duplication steps interact.", "anchors": ["beep/structure/base.py: interpolate_df"]}
{"id": "C169", "title": "Datapaths leave the raw data they are given alone", "statement": "Constructing, structuring, validating, interpolating, saving and loading datapaths never changes the raw table a datapath was made from: whoever holds the same table, another datapath or the caller, finds it as it was.", "quantifier": "every number of datapaths over any shared raw tables, and every sequence of calls on them", "why_tests_cant": "Sharing only shows when several objects use one table in some order; all interleavings matter.", "anchors": ["beep/structure/base.py: BEEPDatapath.__init__, structure, summarize_cycles, from_dict"]}
{"id": "C170", "title": "The recorded structuring parameters reproduce the structured data", "statement": "Structuring the same raw data again with the parameters that a datapath has recorded gives the same structured data.", "quantifier": "every raw table and every combination of arguments of structure", "why_tests_cant": "A recorded set of arguments may miss one; that only shows for inputs where the missing one matters.", "anchors": ["beep/structure/base.py: BEEPDatapath.structure, interpolate_cycles"]}
{"id": "C171", "title": "Structuring does not depend on the order in which the cycles are stored", "statement": "If two raw tables hold, for every cycle, the same records in the same order, then structuring them gives the same cycle summary in all columns, the same diagnostic summary, the same interpolated aging cycles and the same interpolated diagnostic cycles, in the same order and with the same exceptions. In particular parts of a run that have no cycle in common may be joined in either order.", "quantifier": "all raw tables, all ways of storing and mixing the cycles that keep the order within each cycle, all parameters and diagnostic configurations", "why_tests_cant": "the ways of mixing the cycles of a run are unbounded, and tests use files in which the cycles are stored in ascending order", "anchors": ["beep/structure/base.py:BEEPDatapath.summarize_cycles", "beep/structure/base.py:BEEPDatapath.summarize_diagnostic", "beep/structure/base.py:BEEPDatapath.interpolate_cycles", "beep/structure/base.py:BEEPDatapath.interpolate_diagnostic_cycles"]}
{"id": "C172", "title": "The training sets of a splitter show nothing of the test samples", "statement": "For every dataset made by BEEPDataSplitter.split, the training features and targets, with their columns and values, depend only on the training samples: changing the values or the gaps of the other samples (other than their split and exclusion columns) leaves the training set as it is.", "quantifier": "all feature matrices, all changes of samples outside a training set, all settings and shuffles", "why_tests_cant": "a comparison of two runs on related inputs; the changes and matrices are unbounded", "anchors": ["beep/prediction/beep_data_splitter.py:BEEPDataSplitter.__init__", "beep/prediction/beep_data_splitter.py:BEEPDataSplitter.split", "beep/prediction/beep_data_splitter.py:BEEPDataSplitter._impute_df"]}
{"id": "C173", "title": "A feature matrix handed to learning objects stays as it was", "statement": "Making train/test splitters and experiments from a feature matrix and predicting with it, in any order and any number, leaves the caller's matrix as it was, so every call gives what it gives on a fresh matrix. (Samples, cells and the order of the columns do stay, splitters that all remove the parameter hashes do not disturb each other, and nothing changes when no splitter or prediction removes hashes. But with the standard argument a splitter and a prediction rename the columns of the caller's matrix, even when they fail, and a later experiment then has other features.)", "quantifier": "every matrix and every finite history of splitters, experiments and predictions with any arguments, including calls that raise", "why_tests_cant": "The tests make one object from each loaded matrix; the effect appears only in histories that share one.", "anchors": ["beep/prediction/beep_data_splitter.py:BEEPDataSplitter.__init__", "beep/prediction/beep_data_splitter.py:_remove_param_hash_from_features", "beep/model.py:BEEPLinearModelExperiment.__init__", "beep/model.py:BEEPLinearModelExperiment.predict"]}
{"id": "C174", "title": "The exit status of a command tells whether it did its work", "statement": "A caller that looks at the exit status of beep structure or beep featurize can rely on it: it is zero only if the command reached its end, and with halt-on-error only if nothing failed; a command that is interrupted with Ctrl-C, that refuses its arguments or that stops at an error ends with a nonzero status. (Without Ctrl-C and unknown featurizers this holds. But an interrupted command, and a command given an unknown featurizer, ends with status zero: click.Context.exit(1) is called on the class, so that 1 is taken for the context and the code stays 0.)", "quantifier": "every list of files, every behaviour of the files and featurizers, every set of options", "why_tests_cant": "The tests call the commands in process on good inputs; the status matters for interrupted and refused runs, which can happen at any file.", "anchors": ["beep/cmd.py:structure", "beep/cmd.py:featurize", "requirements.txt:click==8.1.7"]}
{"id": "C175", "title": "The exit status of train, predict and protocol tells whether the work was done", "statement": "The exit status of the commands train, predict and protocol can be relied on by a script.  With halt-on-error the status is zero exactly when what was asked for was made: the model, the predictions or the protocol of every row is in its file, and the status file, if asked for, says so.  Without halt-on-error the status is zero also when an exception was caught, and then it is in the status file.  A run that is ended with Ctrl-C has another status than zero.", "quantifier": "all files, options, trainings and predictions that succeed or raise, tables of protocols, writes that are refused, and moments at which Ctrl-C is pressed while the work goes on", "why_tests_cant": "Tests call the commands in a runner on a few good inputs and look at the files; they do not press Ctrl-C, refuse writes or look at the exit status after errors.", "anchors": ["beep/cmd.py:train", "beep/cmd.py:predict", "beep/cmd.py:protocol", "beep/cmd.py:cli"]}
{"id": "C176", "title": "A saved result loads with the numbers that were structured", "statement": "Saving a structured result and loading it again never fails on its columns and gives, under the same names and in the same order, the very numbers that were structured: giving the columns their number types a second time rounds, wraps and refuses nothing. Loading once more what was loaded changes nothing. A document from elsewhere is refused exactly when a column with a published number type has a value the type does not take (for integers: a fraction, a gap, a number out of range; for numbers: a text); otherwise every value is the one of its type nearest to what the document says, whole numbers are exact, and other columns are as in the document.", "quantifier": "every table that structuring can cast and every selection of its rows, every document, every column", "why_tests_cant": "the numbers are arbitrary: that rounding to a floating-point type twice is the same as once, for every number, and that no cell of any table is refused, cannot be seen from example files", "anchors": ["beep/structure/base.py:BEEPDatapath.from_dict", "beep/structure/base.py:BEEPDatapath._cast_dtypes", "beep/structure/base.py:BEEPDatapath.as_dict", "beep/conversion_schemas/structured_dtypes.yaml"]}
{"id": "C177", "title": "Loading does not change the dictionary it is given", "statement": "Building a datapath from a dictionary reads the dictionary and leaves it as it was, so that the caller can save it as JSON, compare it or load it again.", "quantifier": "every dictionary and every column in it", "why_tests_cant": "depends on what the caller does with the dictionary afterwards; tests of loading look at the result only", "anchors": ["beep/structure/base.py:BEEPDatapath.from_dict"]}
{"id": "C178", "title": "Indigo records keep number, time and columns", "statement": "Reading an Indigo file numbers its records from zero in the order of the file and gives every column of the file, with its values, under its published name; this is also so when the old index of the table is stored in the file. Every record keeps its time exactly to the microsecond, and the start of the run is the time of its earliest record.", "quantifier": "every table, every number of records, every time until the year 2242", "why_tests_cant": "times go through two roundings to floating-point numbers, and no set of example files shows that none of the some 10^16 times is moved by a microsecond; the example file has no stored index", "anchors": ["beep/structure/indigo.py:IndigoDatapath.from_file", "beep/conversion_schemas/indigo_conversion.yaml"]}
{"id": "C179", "title": "A saved feature matrix loads as the matrix it was", "statement": "BEEPFeatureMatrix.from_json_file on a file written by to_json_file gives a matrix with the same rows, columns and cells, and the same featurizers in the same order (class, features, hyperparameters, paths, link and metadata), for every matrix that can be built. (It does when there is a featurizer and no hyperparameter is a tuple. The matrix of no featurizers cannot be saved. Tuples come back as lists, and since the names of the columns contain a digest of how the hyperparameters are written, none of the loaded columns is a saved one; two featurizers that differ only in a tuple and the list of the same entries make a matrix that cannot be loaded.)", "quantifier": "all lists of featurizers of known classes, all feature tables, hyperparameters, paths and metadata, all digest functions", "why_tests_cant": "The matrix is not read from the file but made again from the loaded featurizers, with names that depend on how Python writes the hyperparameters; whether they agree depends on the values nested in them.", "anchors": ["beep/features/base.py:BEEPFeatureMatrix.__init__", "beep/features/base.py:BEEPFeatureMatrix.as_dict", "beep/features/base.py:BEEPFeatureMatrix.from_dict", "beep/features/base.py:BEEPFeaturizer.from_dict"]}
{"id": "C180", "title": "A status file says which run it is of", "statement": "If the name of a status file is given, every command that reaches its end writes it under that name, with the command's own entries unchanged and in order, followed by the metadata: the version of beep, the time in UTC, the run id (null if none was given) and the tags in the order given. Without a name, or with an empty one, nothing is written. The time is written as year-month-day hour:minute:second with leading zeros, so that it reads back as the second it was taken in, comparing two such texts as texts compares the times, and equal texts mean the same second.", "quantifier": "every version, date and time of a year of four digits, run id, list of tags, file name, command and content of the command's own entries", "why_tests_cant": "That the texts are in the order of the times, and that no command's own entry is replaced, is about all pairs of times and all contents; a test looks at the clock once.", "anchors": ["beep/cmd.py:add_metadata_to_status_json", "beep/cmd.py:cli", "beep/cmd.py:structure", "beep/cmd.py:featurize", "beep/cmd.py:train", "beep/cmd.py:predict", "beep/cmd.py:protocol"]}
{"id": "C181", "title": "A spliced Maccor file holds both files, whatever their columns", "statement": "Splicing two Maccor files that have rows and all counters (record, cycle, test time, four loops) writes only the output file. It begins with the metadata line of the first file. Its columns are those of the first file in their order, followed by those only the second has, in their order. Its rows are those of the first file followed by those of the second; every cell is that of the file the row comes from, and is missing where that file has no such column. Only the counters of the second file are changed: one that begins below the last value of the first file has that value added in every row. If a file has no rows or lacks a counter, splicing is refused and nothing is written.", "quantifier": "every two files, all lists of columns in common or not, all numbers of rows, all combinations of counters that restart or go on, and every name of the output, also one of the inputs", "why_tests_cant": "The columns of two files can differ in any way and be in any order, and seven counters are moved or not independently of each other.", "anchors": ["beep/utils/splice.py:MaccorSplice.run_splice", "beep/utils/splice.py:MaccorSplice.read_maccor_file", "beep/utils/splice.py:MaccorSplice.column_increment", "beep/utils/splice.py:MaccorSplice.splice_operation", "beep/utils/splice.py:MaccorSplice.write_maccor_file"]}
{"id": "C182", "title": "The options of the retrigger script reach it as they were given", "statement": "The mode, the location of the raw files and the location of the structured files given on the command line of the retrigger script are the texts it works with, whatever they are; a text given in quotes is used without them. An option that is not given has its documented default, without the quotes it is documented with.", "quantifier": "every combination of options given and not given, and every text of an option", "why_tests_cant": "Which texts Python reads as something other than text is a property of all texts; the tests never call the script.", "anchors": ["beep/utils/retrigger.py:eval_args", "beep/utils/retrigger.py:DotDict"]}
