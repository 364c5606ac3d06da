# Formal model of TRI-AMDD/beep in Lean 4

`properties.jsonl` lists the properties, `lean/Verif` holds the model and the
proofs, `MANIFEST.json` maps properties to theorems, `seeded/LOG.jsonl` records
the mutation runs.

## 1. Layout

* `lean/Verif/Model/*.lean` — executable definitions, one file per area of the
  code.  Every definition cites the file and lines of `/repo` it models and says
  where it simplifies.
* `lean/Verif/Spec/*.lean` — small specifications, written from the English
  property and not from the model (no import of the model unless a type is
  shared).
* `lean/Verif/Proof/*.lean` — helper lemmas.
* `lean/Verif/Props/*.lean` — the property theorems, each with a non-vacuity
  `example` beside it.

## 2. Modelling conventions

* A Python function is a total Lean function.  Raised exceptions are values of
  `Except Err`, an `IndexError`/`KeyError` the Python would raise is an explicit
  branch, never a default value.
* A pandas frame is a `List` of row structures that contain only the columns the
  function reads or writes; pandas operations used by the code (boolean mask,
  `unique`, `groupby` in sorted key order, `cumsum`, `diff`, `shift`, index
  alignment) are written out as list functions.
* Floats are rationals (`Rat`) or integers.  NaN, where the code's behaviour
  depends on it, is `none`.  Rounding and overflow of floats are not modelled;
  comparisons with NaN follow IEEE (false), see each definition.
* Strings are `String` or `List Char`.
* Mutation of an object is a function returning the new object.  Aliasing is
  modelled explicitly where a property depends on it (class level defaults,
  shared configuration dictionaries, frames relabelled in place).
* When the code violates the property: the violation is proved as a theorem with
  a concrete witness (suffix `_violated`), and the strongest true variant is
  proved with suffix `_partial`.

## 3. Trusted base

### 3.1 Logic

* Lean 4.33.0 kernel.
* Axioms: `propext`, `Classical.choice` and `Quot.sound`, and no others.  `#print axioms` on
  the theorems of the manifest gives exactly these: most depend on all three, the rest on a
  subset.  There is no `sorry`, no own axiom, no `native_decide`, no `bv_decide`.
* Concrete witnesses and non-vacuity examples use `decide +kernel`, which is evaluation by
  the kernel and adds no axiom.
* Mathlib, for tactics and lemmas; everything it contributes is checked by the kernel.

### 3.2 Reading of the source

The model is written by hand from the text of `/repo`; nothing was executed.  That the Lean
definitions say what the Python says is trusted.  Each definition cites the lines it models.

### 3.3 Library behaviour

The following behaviour of code outside `/repo` is written into the model and trusted:

* CPython: insertion ordered dictionaries, `str.strip`, `str.split`, `str.zfill`, slices with
  negative bounds, `round` half to even, the order of exceptions in an expression.
* pandas and numpy: boolean masks, `unique`, `groupby` in sorted key order, `cumsum`, `diff`,
  `shift`, label alignment, `fillna`, `describe`-style aggregates that skip missing values,
  `searchsorted`, `np.interp`-like linear interpolation, `linspace`.
* pydash `get`, `set_with`, `unset`: by their documentation, for paths without dots, brackets,
  backslashes or numbers.
* `re` for the handful of patterns of `beep/structure/cli.py`.
* `json.loads` never yields duplicate keys; `xmltodict` gives a single element instead of a list
  of one.

The following are arbitrary functions (theorems hold for each of them): SHA-256 and MD5, `str` of
a number or cell, square root, the fitted sklearn estimator, the shuffle of `KFold`,
`os.path.abspath`, the loaders and structuring of a file in a batch, the builders of protocol
files, the nominal capacity lookup.

### 3.4 Modelled

| Module | Source |
|--------|--------|
| `Model/Diagnostic` | `structure/diagnostic.py`: `DiagnosticConfig` (all), `from_step_numbers`, `as_dict`/`from_dict` |
| `Model/Validate` | `structure/validate.py`: `SimpleValidator.validate` and every rule |
| `Model/Datapath` | `structure/base.py`: object states, guards, `structure`/`unstructure`, `as_dict`/`from_dict`/`to_json_file`/`from_json_file`, diagnostic setter |
| `Model/Steps` | `structure/base.py`: `step_is_chg_state`, `get_charge`-style selection of steps |
| `Model/Interp` | `structure/base.py`: `interpolate_df`, `interpolate_step`, `interpolate_cycles` |
| `Model/CyclesInterp` | `structure/base.py`: `step_is_waveform`, choice of the axes in `interpolate_cycles` |
| `Model/DiagInterp` | `structure/base.py`: `interpolate_diagnostic_cycles` (runs of a step, axis per run, slopes, order); plots of the result are not modelled |
| `Model/SummaryFull` | `structure/base.py`: all other columns of `summarize_cycles` (aggregation and renaming by position, time-temperature integral, pause, CV), `summarize_diagnostic`, effect on `raw_data` |
| `Model/CoreFeatures` | `features/core.py`: `CycleSummaryStats`, `DiagnosticSummaryStats` (steps as found by `get_step_index`), `DeltaQFastCharge`, the filters on `diagnostic_data`; logarithms of statistics stay symbolic, `np.polyfit` of degree 1 in exact arithmetic |
| `Model/Degradation` | `features/featurizer_helpers.py`: `get_fractional_quantity_remaining`, `get_fractional_quantity_remaining_nx` (parameter lookup excepted); `features/core.py`: `DiagnosticProperties`, `ExclusionCriteria`; rows with missing values are not modelled in `get_threshold_targets` |
| `Model/Hppc` | `features/featurizer_helpers.py`: `get_hppc_ocv_helper`, `get_hppc_ocv`, `res_calc`, `get_resistance_soc_duration_hppc`, `get_dr_df`, `get_v_diff`, `get_diffusion_coeff`, `get_diffusion_features`; `features/core.py`: `HPPCResistanceVoltageFeatures`. The spline and the square root are arbitrary functions, the steps come from the model of `get_step_index` |
| `Model/RawImage` | `features/core.py`: `RawInterpolatedData`, `ChargingProtocol`, validation of `TrajectoryFastCharge` |
| `Model/Intracell` | `features/intracell_analysis.py`: profiles, `_impose_degradation`, `halfcell_degradation_matching_v3`, `blend_electrodes`, `get_halfcell_voltages`; `features/intracell_analysis_v2.py`: profile, `_impose_electrode_scale`, `halfcell_degradation_matching_ah`, `get_electrode_info_ah`, choice of the error; `features/intracell_losses.py` and `intracell_losses_v2.py`: validation and features |
| `Model/Ingest` | `deprecated/parameters_lookup.py`: `get_project_sequence`, `get_protocol_parameters`; `structure/maccor.py`: `parse_metadata`, `split_string_by_fields`, `correct_timestamp` (US rules since 2007, text of a stamp abstracted), channel number; `structure/indigo.py`: reading of the HDF5 groups, derived columns |
| `Model/Transfer` | `cmd.py`: matching and fetching of S3 keys (arguments without `*`); `utils/project_transfer.py`: `get_list_files`, `download_and_modify` (how much of an open file has reached the disk is a parameter) |
| `Model/Summary` | `structure/base.py`: `summarize_cycles`, `get_cycle_life`, `cycles_to_capacities`, `capacities_to_cycles`, throughput, charge duration, trailing cycle |
| `Model/Segments` | `structure/base.py`: `get_CV_segment_from_charge`, CV quantities, `get_max_paused_over_threshold` |
| `Model/Shared` | `structure/base.py`: raw tables shared by several datapaths, `structuring_parameters` |
| `Model/MaccorQuantity` | `structure/maccor.py`: `quantity_sum` |
| `Model/Parsers` | `utils/splice.py`; record loop and test time of `structure/neware.py`; step time of `structure/battery_archive.py`; capacities of `structure/novonix.py` |
| `Model/Routing` | `structure/cli.py`: `auto_load` |
| `Model/CycleRules` | `structure/biologic.py` and `protocol/maccor_to_biologic_mb.py`: rule objects, their JSON form, `get_cycle_index`, `add_cycle_nums_to_csvs` |
| `Model/MaccorToBiologic`, `Model/Units`, `Model/FixedWidth` | `protocol/maccor_to_biologic_mb.py`: end entry filters, splitting of limits, sequences, partition, loops, cycle rules, sequence mappings, units, table text |
| `Model/BiologicToMaccor` | `protocol/biologic_mb_to_maccor.py`: sequences to steps, numbering, loops, units |
| `Model/MaccorToArbin` | `protocol/maccor_to_arbin.py`: metadata, controls, limits, loops, repeated conversion |
| `Model/ArbinFile`, `Model/Schedule`, `Model/Dash` | `protocol/arbin.py`: `to_file`, `from_file`, labelled edits; `utils/__init__.py`: `DashOrderedDict` |
| `Model/MaccorProcedure`, `Model/Waveform` | `protocol/maccor.py`: every insert function, formatting, edits, initial rest, waveform files |
| `Model/ChargeWave` | `utils/waveform.py` except the smooth curve; `protocol/maccor.py`: `insert_driving_parametersv1` (file name), `insert_charging_parametersv1` |
| `Model/Generate` | `protocol/generate_protocol.py` |
| `Model/Features`, `Model/StepRoles` | `features/base.py`; `features/featurizer_helpers.py`: `get_step_index` |
| `Model/Splitter`, `Model/LinearModel`, `Model/Table` | `prediction/beep_data_splitter.py`, `model.py` |
| `Model/SharedMatrix` | histories of splitters, experiments and predictions on one matrix (beep_data_splitter.py, model.py) |
| `Model/ExitStatus` | exit statuses of `beep structure` and `beep featurize` (cmd.py:482-638, 707-993; click 8.1.7) |
| `Model/ExitMore` | exit statuses of `beep train`, `beep predict` and `beep protocol`, with Ctrl-C (cmd.py:1150-1356, 1391-1509, 1528-1611) |
| `Model/LoadCasts` | the number types that loading gives to the columns of a dictionary (base.py:424-428, structured_dtypes.yaml) |
| `Model/IndigoTable` | number, times, start and published names of the records of Indigo files (indigo.py:60-64, 86-98) |
| `Model/MatrixFile` | saving and loading of feature matrices (features/base.py:295-363): what the file keeps of the featurizers, the matrix made again |
| `Model/StatusMeta` | the metadata of status files (cmd.py:127-145), the options kept for it (235-240) and the writing of the status by every command |
| `Model/SpliceFile` | `utils/splice.py` with files, metadata lines, all columns and the cells `pd.concat` leaves missing; tab separated text is read and written by the environment |
| `Model/RetriggerArgs` | `eval_args` of `utils/retrigger.py` (34-73) and the defaults docopt reads from its documentation |
| `Model/Batch` | `cmd.py`: `beep structure` |
| `Model/TrainCmd` | `cmd.py`: `beep train`, `beep predict`; `model.py`: `_score_arrays`, `train_and_score` |
| `Model/WaveProcedure` | `protocol/maccor.py`: the waveform step, `generate_procedure_drivingv1`, `generate_procedure_chargingv1` |
| `Model/FastCharge` | `protocol/arbin.py`: `from_fast_charge` |
| `Model/BiologicFile` | `structure/biologic.py`: `_get_file_type`, `from_file` without mapping file, time stamps and metadata; `float(text)` is a parameter |
| `Model/BiologicTime` | `structure/biologic.py` 126-136: `date_time_iso` and `test_time` from the fields of the stamps; the matching of the text by `strptime` and time zone rules before 2007 are not modelled |
| `Model/BiologicMeta` | `structure/biologic.py`: `parse_metadata` with the `str(bytes)` of each line, the metadata path; the MD5 digest is represented by its argument |
| `Model/Pca` | features/principal_components.py: `pivot_data`, the number of components in `fit`, `get_reconstruction_errors`, `get_reconstruction_error_outliers`, the flags of `get_pca_decomposition_outliers` (the fitted scaler and PCA are parameters) |
| `Model/Eis` | structure/maccor.py: `MaccorEIS.from_file`, `load_eis` with `fnmatch` and `glob`; base_eis.py: `EIS.as_dict` (dates and tables are parameters) |
| `Model/IntracellFit` | features/intracell_analysis_v2.py: `…_no_real` functions, the V-Q, dVdQ and dQdV representations, the three error functions and `_get_error_from_synthetic_fitting_ah`; numpy `gradient`, pandas `ewm`, scipy `cdist` (standardised Euclidean distance in ℝ). The optimiser is not modelled |
| `Model/IntracellV1` | features/intracell_analysis.py: `halfcell_initial_matching_v2` with an arbitrary spline, both error functions of version 1 (in ℝ), `get_V_over_SOC_from_degradation_matching`, dVdQ/dQdV over Q and dVdQ over V of the initial match. A scaling value of 0 is refused; the optimiser and the smoothed dQdV over V are not modelled |
| `Model/Casts` | structure/arbin.py 45-75, maccor.py 85-91, neware.py 107-109, battery_archive.py 75-113 and the tables of conversion_schemas: lower-casing, renaming, `astype` and the number types (integers wrap, IEEE rounding half to even, overflow to infinity), `utcfromtimestamp`; structure/base.py `_cast_dtypes` with structured_dtypes.yaml |
| `Model/Novonix` | `structure/novonix.py` 30-73 (search for the column names, metadata of the summary, table); lines as bytes; the text form of a line (`str(line)`) is modelled with its quotes and escapes; fields with tabs or double quotes and lines of `NA` only are not |
| `Model/RawUnits` | `structure/neware.py` 76-109, 123-138; `structure/novonix.py` 75-91 with the columns of `novonix_conversion.yaml`; numerals without signs and exponents; fields that spell numbers are given as numbers; quotients are exact |
| `Model/ArbinShell` | `ProcedureToSchedule.create_sdu` at the level of the file (maccor_to_arbin.py 46-107): removal of the steps of the shell, step count, safety ranges, numbered steps, safety sections. The compiled steps are given as dictionaries (their content is `Model/MaccorToArbin`). |
| `Model/IntracellV1Smooth` | `features/intracell_analysis.py` 179–242, 328–335, 760–862: smoothed derivatives (`ewm`) and the errors of fits of derivatives |
| `Model/RoundTrip` | `protocol/maccor_to_biologic_mb.py: convert` followed by `protocol/biologic_mb_to_maccor.py: biologic_mb_text_to_maccor_xml`, by composition of `Model/MaccorToBiologic` and `Model/BiologicToMaccor` |
| `Model/AutoLoad` | `auto_load_processed` in `structure/cli.py`, `inspect` in `cmd.py` (which object is reported under which heading; the body of the report is not modelled) |
| `Model/DatapathId` | `semiunique_id` in `structure/base.py` (how numbers are printed is an input) |
| `Model/Retrigger` | `utils/retrigger.py` (buckets as lists of objects in the order of their keys; the queue is the list of events) |
| `Model/MaccorRun` | the accumulated columns in `MaccorDatapath.from_file` as input of `summarize_cycles` (number types not modelled here) |
| `Model/Settings` | `protocol/biologic.py`: `Settings.mps_text_to_schedule_dict`, `Settings.to_file`; `protocol/biologic_mb_to_maccor.py`: `_get_seqs`; `protocol/maccor_to_biologic_mb.py`: header template, `_technique_to_str`, file text. Technique numbers are texts without dots; of `data.unset` only the paths `Metadata` and `Technique` are modelled |
| `Model/ProtocolCmd` | `cmd.py`: `beep protocol` |
| `Model/RunParameters` | `deprecated/parameters_lookup.py`: structuring parameters, diagnostic limits |
| `Model/Featurize` | `cmd.py`: `beep featurize`; the in-place changes of `features/core.py` featurizers to their datapath and hyperparameters |
| `Model/JsonText` | `json.dumps` and `json.load` as `to_json_file`/`from_json_file` use them (structure/base.py 312-357, features/base.py 155-196 and 330-365, model.py 560-590), and the file while it is written; not compressed files, not the conversion of floats to their literals |

`Model/Py`, `Model/Pandas`, `Model/Text` model library functions, not files of `/repo`.

### 3.5 Not modelled

* Floating point rounding, overflow, and the difference between `-0.0` and `0.0`: all numbers are
  integers or rationals, except where a column is cast to a number type (`Model/Casts`, `Model/LoadCasts`) and in the times
  of Indigo records (`Model/IndigoTable`).
* Byte level syntax of CSV and XML; the Arbin schedule text, the fixed width Biologic tables and the JSON of saved objects
  (`Model/JsonText`) are modelled by characters.
* Numerical optimisation and fits: `differential_evolution` and the distances of `features/intracell_*.py` (arbitrary
  functions in `Model/Intracell`), the optimisers, `curve_fit`, `fsolve`, sklearn
  estimators, the decomposition inside PCA, `PchipInterpolator`.
* EIS validation, plotting, logging, memory profiling, access to S3, `scripts/`, `tasks.py`.
* `get_V_I` in `features/featurizer_helpers.py`, `blend_electrodes_robust`, `blend_electrodes_robust_v2` and
  `halfcell_initial_matching` in `features/intracell_analysis.py`, which nothing calls.

Column names and number types of all readers are modelled: Arbin, Maccor, Neware, the Battery Archive and structured results in
`Model/Casts`, Novonix in `Model/RawUnits`, Biologic in `Model/BiologicFile`, Indigo in `Model/IndigoTable`.

## 4. Plan per property

| Id | Model | Method |
|----|-------|--------|
| C01–C04 | `Model/Diagnostic` | counting argument: sum of cardinalities equals cardinality of the union iff pairwise disjoint; refinement to a relation "index i is listed under type t"; round trip |
| C05 | `Model/Validate` | fold with early return = conjunction of rules; the message names the bound and the row of the first offending entry |
| C06–C08 | `Model/Datapath` | state machine, induction over operation lists; negation for the unstructured reload |
| C09–C10 | `Model/Steps` | partition lemma over step index; decision logic of `step_is_chg_state`; negation witnesses for two-row steps and the inverted NaN branch |
| C11 | `Model/Interp` | piecewise linear interpolation over `Rat`; bounds, exactness at nodes, grid shape |
| C12–C17 | `Model/Summary` | list functions with explicit index labels; misalignment is proved as a violation; partial for 0..n-1 labels |
| C18–C19 | `Model/Segments` | first index search; boundary violation at row 0 |
| C20 | `Model/MaccorQuantity` | loop invariant against a specification by sums over rows of the same cycle and state |
| C21–C22 | `Model/CycleRules` | recursion over rows; round trip of the serialised form |
| C23 | `Model/MaccorToBiologic`, `Model/CycleRules`, `Spec/CycleCount` | inductive runs of Maccor procedures and of converted techniques, equivalence of the two (`Proof/CycleFlat`), invariant of the rule scan (`Proof/CycleCount`), induction over runs (`Proof/CycleRun`); violation witnesses for loops beginning with AdvCycle, one-step loops and repeated techniques beginning with AdvCycle |
| C24–C29 | `Model/MaccorToBiologic` | structural induction over the step list, offset arithmetic |
| C30–C31 | `Model/BiologicToMaccor` | case analysis; numbering induction |
| C32–C33 | `Model/MaccorToArbin` | index arithmetic, backwards search |
| C34–C35 | `Model/ArbinFile`, `Model/FixedWidth` | encode/decode round trips over `List Char` |
| C36–C40, C61 | `Model/MaccorProcedure` | arithmetic mod 86400; run length encoding; padding lemmas |
| C41–C44 | `Model/Splice`, `Model/Parsers` | monotonicity inductions |
| C45–C47 | `Model/Features` | association list maps; injectivity violation |
| C48–C50 | `Model/Splitter` | partition of positions; threshold counting |
| C51–C53 | `Model/LinearModel` | explicit mutation of column labels; scaler as a parameter |
| C54–C56 | `Model/Batch` | fold over files with an arbitrary outcome function |
| C57 | `Model/Dash` | nested dictionary laws |
| C58 | `Model/Routing` | decision list |
| C59 | `Model/StepRoles` | pigeonhole on the final length assertion |
| C60 | `Model/Schedule` | map/filter lemmas |
| C62–C63 | `Model/Summary`, `Model/Datapath` | aggregates over groups; label versus position after reload |
| C64–C65 | `Model/MaccorToArbin` | case analysis of controls; the converted steps keep their order and targets (`C64_flow`); explicit mutation of the procedure |
| C66 | `Model/MaccorProcedure` | frame lemmas for every insert function |
| C67 | `Model/Parsers` | invariant of the line loop |
| C68 | `Model/Featurize` | invariant of the loop over files, featurizers as arbitrary functions; collisions of intermediate names |
| C69 | `Model/MaccorProcedure`, `Spec/Inserted` | last assignment to a place survives; assertions hold in the result; frame lemmas of C66; `Props/Accepted` shows that every parameter set within the asserted ranges is accepted |
| C70 | `Model/BiologicToMaccor`, `Spec/BtmConditions` | positions from C31; case analysis per limit, record rule and set point; rounding lemma for milliseconds |
| C71 | `Model/LinearModel`, `Spec/Prediction`, `Spec/Stats` | column-wise characterisation of scaler, imputation and transformation; witness with two prediction batches |
| C72 | `Model/MaccorToArbin`, `Spec/ArbinRun` | step semantics of procedures and schedules; bisimulation of one move, invariant on loop counters (nested intervals), induction over runs |
| C73–C74 | `Model/Waveform`, `Model/ChargeWave` | C38 applied to the repeated profile; splitting of names at underscores; witness of two requests with one name |
| C75–C76 | `Model/ChargeWave`, `Spec/ChargeWave` | induction over the windows; partial sums of the time per point; interpolation between points in order of time; the smooth curve is an arbitrary parameter |
| C77 | `Model/ChargeWave`, `Spec/ChargeWave` | pointwise evaluation of the gradient as a weighted mean of slopes |
| C78 | `Model/CyclesInterp`, `Spec/CyclesInterp` | membership through the loops over cycles and steps, then C11 on the step's own table |
| C79 | `Model/DiagInterp`, `Spec/DiagInterp` | the change counter numbers the maximal runs (uniqueness of the decomposition into runs), then C11 on the run's own table; acceptance by the loops' success |
| C80 | `Model/SummaryFull`, `Spec/SummaryFull` | lookup of each column after renaming, then C18/C19 on the cycle's own rows; trapezoidal rule by induction |
| C81 | same | rows by the configuration (C01, C02), columns as in C80 |
| C82 | same | the discarded `drop` leaves a column behind: violated for every table; all other columns unchanged |
| C83–C84 | `Model/CoreFeatures`, `Spec/CoreFeatures` | blocks of seven values against names zipped by position; labels are pairwise distinct; numpy broadcasting cases |
| C85 | same, `Proof/LeastSquares` | lookup by label; the fit minimises the sum of squares (completed square, positive determinant) |
| C86 | same | acceptance of each step; witnesses of validated data that raise |
| C87 | same | both filters as one predicate; they commute and are idempotent |
| C88 | `Model/MaccorToBiologic`, `Spec/MtbContent` | exact success conditions of each entry, lifted over the two passes with the lower bound and the open loop as invariant; the sequences of a step are found by a decomposition of the output |
| C89, C90 | `Model/Degradation`, `Spec/Degradation` | selection by regular and diagnostic cycles; running sums as an invariant over the rows in order; the end of the first block by induction over the gaps |
| C91 | same | both ways of interpolation put the point on the line between neighbours; the first minimum over the grid by induction; columns through the fold of dictionary writes |
| C92 | same | consecutive triples of rows against second differences |
| C93 | same | forward fill as the last measured value; the loop over cycles by induction |
| C94 | `Model/Ingest`, `Spec/Ingest` | decomposition of run file names; digits against `Nat.ofDigits` |
| C95 | same | `str.split` as first occurrences; induction over the labels |
| C96 | same | clocks as a relation between instants and shown times; the calendar by its successor rules; linear arithmetic |
| C97 | same | positions of columns in the groups against positions of names |
| C98, C99 | `Model/Transfer` | first lines and single occurrences; invariant of the files on disk |
| C100 | `Model/Hppc`, `Spec/Hppc` | windows as the n-th distinct counter of a step; sorting by time as the only ordered permutation |
| C101 | same | mean of the last ten points against the tenth from the end; comparison of sums of rising values |
| C102 | same | spline as an arbitrary function; removal of points by induction over the curve |
| C103 | same | least squares of C42 for every window |
| C104 | same | names of the parts, each once |
| C105 | `Model/RawImage`, `Spec/RawImage` | cycles and steps by position; induction for filled gaps |
| C106 | same | C94 for the rows, then the columns asked for |
| C107 | `Model/Intracell`, `Spec/Intracell` | the interpolated value is the only one on the curve (induction over sorted points); affine maps of curves |
| C108 | same | as C107; first least row of the clipped full cell |
| C109 | same | nearest row by `argmin`; look-up by place and by voltage |
| C110 | same | membership in the filtered rows; interpolation with fill values |
| C111 | same | induction over the cycles that are fitted |
| C112 | same | extrapolated curves (induction), mixture, twice interpolated |
| C113 | same | case split; witness for the synthetic fits |
| C114 | `Model/TrainCmd`, `Spec/TrainCmd` | case split over the run of the command; the keywords are bound to the constructor's arguments, so unknown ones raise |
| C115 | same | as C114, tracking the files |
| C116 | same | column-wise characterisation of scores; two runs compared; witness for imputed values |
| C117 | same | as C114; chain by C53 |
| C118 | `Model/ProtocolCmd`, `Model/Generate`, `Spec/ProtocolCmd` | C56 for the loop; files as a map, the last write wins |
| C119 | `Model/RunParameters`, `Spec/RunParameters` | C94 for the row; case split over columns |
| C120 | same | cycles by their sets of steps; induction for the last cycle |
| C121 | `Model/WaveProcedure`, `Model/MaccorProcedure`, `Spec/WaveProcedure`, `Spec/Inserted` | the parts of C69 chained, with the steps each leaves alone; acceptance from C69; names by splitting at dots |
| C122 | same | the parameters after the call are part of the model's result |
| C123 | `Model/FastCharge` | the frame theorems of C60 composed; digits of a natural number by induction, rounding by C20's lemma |
| C124 | `Model/BiologicFile` | invariant of the row loop: each column holds the converted fields of the lines long enough; equal lengths force equal lines |
| C125 | `Model/Datapath` | lookup after each imputed column; case analysis of the schema search |
| C126 | `Model/BiologicMeta` | invariant of the line loop in three phases; the hashed text determines its lines; the digest itself is not modelled, its argument is |
| C127 | Model/Spec/Proof/Props Pca | invariant of the loop over files relating rows to (file, cycle) labels; entries by find in a table without duplicates |
| C128 | Model/Spec/Proof/Props Pca | induction over cumulative sums; maximum of the training errors |
| C129 | Model/Spec/Proof/Props Pca | percentiles commute with increasing affine maps and are monotone in the percentage |
| C130 | Model/Spec/Proof/Props Eis | occurrences of labels; induction over words and replaced text |
| C131 | Model/Spec/Proof/Props Eis | pattern tokens of plain text match literally; splitting at slashes is inverted by joining; induction over the paths |
| C132 | Model/Spec/Proof/Props IntracellFit | resampling a curve on its own grid is the identity; argmin of the clipped full cell |
| C133 | Model/Spec IntracellFit, Proof/MeanNearest, Props IntracellFit | case analysis of all errors; a standardised distance is at most the square root of twice the number of points less one times two |
| C134 | Props IntracellFit | a simulated profile is a fixed point of matching at its own parameters |
| C135 | Spec/Props IntracellSlopes | slopes as interpolating parabolas; invariant of the smoothing state: weighted sum and weight |
| C136 | Spec/Props IntracellSlopes | as C135, with the interpolation theorems of C107 |
| C137 | `Model/Settings`, Spec/Settings, Props/MpsFile | the numbering follows from the tiling of C24; tables from C35; no key or header line reads like a heading (checked on the 62 keys and 31 header lines) |
| C138 | `Model/Settings`, Spec/Settings, Props/Settings | lines of the text, positions of headings, entries of the lines outside the table, induction over the entries when writing; the table by C35 |
| C139 | Props/MpsFile | the line of the safety limits makes every file unreadable (by C138); the part below the header by C138 |
| C140 | Model/Spec/Props IntracellV1 | rows of the match followed through realignment, move and stretch; interpolation theorems of C107 |
| C141 | Props IntracellV1Error | the rows of the fit are those of the match; sums over the rows; a flat cell as witness that coverage is not rewarded |
| C142 | Props IntracellV1Slopes | `gradient` theorems of C135; straight profiles for dVdQ over V |
| C143 | Model/Spec/Props Casts | columns followed through lower-casing, casts and renaming; tables compared with an independent list |
| C144 | Props Casts, Proof Casts | rounding to the last place is the nearest number of the format (binade argument); induction over the type table |
| C145 | Props Casts, Proof CastsTime | times between 2^30 and 2^31 have exponent 30, so the step of single precision is 128 |
| C146 | Model/Spec/Proof/Props Novonix | induction over the lines of the search; the table is compared with the fields of the lines by splitting at commas |
| C147 | Novonix | the escaped text of an ordinary line contains a label exactly when the line does; the fold over the summary keeps an entry until a line of the same label |
| C148 | Model/Spec/Proof/Props RawUnits, with Casts and Parsers | conversions column by column composed with the number types of C144; forward and backward filling by induction on the gaps |
| C149 | `ArbinShell` | what the loop over the keys leaves and saves, by induction over the keys; writing entries one after the other read off key by key |
| C150–C151 | `Model/IntracellV1Smooth` | invariant of the smoothing state against a sum of weighted values; Euclidean distance over ℝ; violations for all cells with a gap, for all pairs of different weights |
| C152 | `Model/RoundTrip` | induction over the numbered steps: without loops sequence `i` is step `i + 1` in both directions; then step by step with C29; violations for all procedures with a charge, a loop, a current end, an early end |
| C153 | `Model/SummaryFull`, `Model/Interp` | the sorted cycles up to a finished one are the same with and without the new data; running sums over an append; the last-cycle rule removes only a new row; the grid of a capacity axis needs the range unchanged |
| C154 | `Model/Interp` | strictly sorted known points with the same members are equal; induction along the known points for affine maps and for monotonicity |
| C155 | `Model/AutoLoad` | case distinction over what a JSON file can hold; objects abstract |
| C156 | `Model/AutoLoad` | case distinction over what is decoded, how `as_dict` ends and the ending of the name |
| C157 | `Model/DatapathId` | the id is a join at colons, which splitting inverts; the state machine of `Model/Datapath` for structuring and reloading |
| C158 | `Model/Retrigger` | induction over the listed objects; prefixes of keys |
| C159 | `Model/MaccorRun`, `Model/MaccorQuantity`, `Model/Summary` | composition of C20 and C62: accumulated values do not fall within a cycle, so their maximum is the value at its last record, which is the sum over its steps |
| C160 | `Model/MaccorToBiologic`, `Spec/LoopRuns` | two small machines (Maccor steps with loop counters, Biologic sequences and techniques) are run side by side: induction over the laps of a loop inside a technique, over the rounds of an outer loop, and over the techniques that tile the procedure (C24). Assumed of the cyclers: a Maccor loop with count n runs n times in all; `ctrl_repeat` and `nt times` count how often the Biologic cycler goes back |
| C161 | `Model/Parsers` (splice) | induction over the list of files; the two groupings compared column by column |
| C162 | `Model/BiologicTime` | clock time written as instant minus offset; digits as a decimal fraction by induction |
| C163 | `Model/BiologicToMaccor` | both cyclers as inductive relations from reached limits to runs; simulation by induction on the run of the technique, with the loop counters of the loops around the present sequence as invariant |
| C164 | `Model/SummaryFull`, `Model/Summary`, `Model/Segments` | one change of all clocks, numbers and units; each aggregation, sum, rule and segment shown to commute with it |
| C165 | `Model/JsonText` | writer, reader and file character by character; induction over the nesting for the round trip; reading is stable under more text behind, so a beginning that can be read would be the whole |
| C166 | `Model/Batch`, `Model/Featurize`, crash points in `Spec/Rerun` | every kill changes only outputs the rerun opens again; the loop does not depend on those |
| C167 | `Model/Validate` | each rule compared on a column and on its beginnings and pieces, lifted to the verdict by C05 |
| C168 | `Model/Interp` (`valueAt`), `Props/InterpTies` | case analysis of the linear interpolation on weakly sorted points; first row at a point by `find?` |
| C169 | `Model/Shared` | tables by identity, histories of calls; invariant "only these columns may be new" by induction |
| C170 | `Model/Shared`, `Model/CyclesInterp` | recorded dictionary against the arguments; result depends on the excluded cycles as a set |
| C171 | `Model/SummaryFull`, `Model/CyclesInterp`, `Model/DiagInterp` | every result is a function of the sorted cycles, the rows of each cycle and extremes over all rows |
| C172 | `Model/Splitter` | two constructors on related matrices compared column by column; witnesses for imputed values and dropped features |
| C173 | `Model/SharedMatrix` | the caller's frame as state, a history as a list of calls; induction over the history, idempotence of the renaming; general and concrete witnesses for the renaming |
| C174 | `Model/ExitStatus` | the endings of the two commands mapped to exit statuses as click does; equivalences by induction over the loops; general counterexamples for Ctrl-C and unknown names |
| C175 | `Model/ExitMore` | the endings of `train`, `predict` and `protocol` mapped to exit statuses; consequences of C115, C117 and C118; general counterexamples for Ctrl-C and for `protocol` |
| C176 | `Model/LoadCasts` | the casts of `from_dict` on a dictionary of lists and series; rounding to a format is idempotent because the nearest number to a number of the format is itself; induction over columns and objects |
| C177 | `Model/LoadCasts` | the dictionary after a load is the one the casts wrote into: general counterexample, and what stays |
| C178 | `Model/IndigoTable` | the two `reset_index` calls on lists of columns; error bounds of two roundings to doubles add up to less than half a microsecond |
| C179 | `Model/MatrixFile` | values as a nested inductive type, what JSON does to them by recursion; the loaded featurizers are the sources of the same matrix (`Model/Features`) |
| C180 | `Model/StatusMeta` | the new entry goes to the end of the dictionary since no command has one of that name; texts of two-digit numbers compare as the numbers, by cases on the first difference |
| C181 | `Model/SpliceFile` | column by column: a pass of the loop replaces one column and leaves the others; induction over the columns to update |
| C182 | `Model/RetriggerArgs` | `ast.literal_eval` given for integers, plain quoted strings and `None`, arbitrary otherwise; cases on the text |

No property in the list is inexpressible; those that depend on floating point
or on third party libraries are proved over exact arithmetic and with the
library behaviour as stated in section 3.

## 5. Findings

Behaviour of the code that contradicts a listed property.  Each entry is proved as the named
`_violated` theorem; where the theorem is a concrete witness the entry says what the general
shape is.

### Structuring (`beep/structure`)

* C05 the messages of `max_at_least` and `min_is_below` print the value of the first row as the one found (`C05_found_violated`).
* C05 `validate.py`: the monotonic rule drops missing values pairwise, so a decrease across a
  missing value is accepted (`C05_increasing_violated`); the message of a failed bound names
  the wrong threshold at line 201 (`C05_message_violated`).
* C06 `base.py`: an unstructured object that is saved and loaded reports that it is structured
  (`C06_reload_violated`); a `structure` call that fails leaves `is_structured` true
  (`C06_failed_structure_violated`).
* C07 `base.py`: the default save omits the raw data, its reload is a legacy object and cannot be
  saved again (`C07_default_loses`).
* C09 rows with a missing step index are in neither the charge nor the discharge part
  (`C09_nan_step_violated`).
* C10 `step_is_chg_state`: two-row charges are discharges (`C10_two_row_charge_violated`), a
  discharge with one jump is a charge (`C10_jump_discharge_violated`), the branch for a missing
  charge column (1356-1357) is inverted (`C10_missing_charge_violated`), and with either column
  missing rests are discharges (`C10_missing_rest_violated`).
* C14 charge durations (807-831) are assigned by position but indexed by label, so they belong to
  another cycle unless cycles are numbered from 0 (`C14_one_based_violated`,
  `C14_witness_violated`).
* C15 the completeness rule looks at the last raw cycle even if that is a diagnostic cycle
  (`C15_diagnostic_end_violated`).
* C16 `get_cycle_life` tests `<=` and searches `<`: IndexError at equality
  (`C16_equality_violated`); a dip that recovers counts as the end of life
  (`C16_recovery_violated`); not monotone (`C16_monotone_violated`).
* C17 `cycles_to_capacities`: length mismatch when the interval does not divide the range
  (`C17_uneven_violated`), zeros for short runs (`C17_short_violated`), positions instead of
  cycle numbers (`C17_position_violated`).
* C18 CV segment: starting at row 0 it is the last row (`C18_from_start_violated`); without CV the
  last two rows are returned (`C18_no_cv_violated`).  The CV columns of the summaries inherit both
  (`C80_cv_from_start_violated`, `C80_cv_never_violated`, `C81_…`).
* C19 `get_max_paused_over_threshold` reads stamps through the local time of the machine: fractions of a second are dropped, so a gap
  just above the threshold is not reported (`C19_fraction_violated`), and stamps without a time zone (Novonix) show a pause of more than
  an hour wherever the machine's clock is set back in autumn (`C19_clock_change_violated`).
* C20 `quantity_sum`: a final step that begins a new cycle gets the sum of the previous one
  (`C20_dangling_violated`); a cycle change inside a step does not reset
  (`C20_cycle_inside_step_violated`).
* C22 duplicate transitions are overwritten silently (`C22_duplicate_violated`), field types are
  not checked (`C22_type_violated`).
* C43 the last row of a Battery Archive file that begins a step gets the start time of the
  previous step (`C43_last_row_violated`); a one-row table raises (`C43_one_row_violated`).
* C44 the energy of discharge-only Novonix cycles is a capacity minus an energy
  (`C44_discharge_only_energy_violated`).
* C58 `auto_load` matches its patterns against the whole path, so directory names decide
  (`C58_directory_violated`).
* C63 cycle life changes when an object is reloaded, labels become positions
  (`C63_reload_violated`).
* C82 `summarize_cycles` leaves the column `time_since_cycle_start` in `raw_data`: the result of
  `drop` is discarded (`C82_raw_violated`).

* C94 `deprecated/parameters_lookup.py` 47: `glob(project + "*")` finds the files of every project whose
  name begins with this one: a run of a project without a file gets another project's parameters
  (`C94_other_violated`), one with a file fails (`C94_ambiguous_violated`).
* C95 `maccor.py` 326-328: a label inside the comment makes the file unreadable (`C95_comment_violated`);
  line 113 writes the empty channel under `channnel_id` (`C95_channel_violated`).
* C96 `maccor.py` 293, 301: `is_dst=True` dates the second pass of the repeated hour one hour too early
  (`C96_repeated_violated`, `C96_order_violated`).
* C97 `indigo.py` 36-50: the values of three type groups are put under the names of the whole table
  (`C97_table_violated`), other numbers of types fail (`C97_types_violated`); lines 75 and 79 report joules
  (`C97_energy_violated`).
* C159 A Maccor file read while the first step of a cycle is running: the step inherits the sums of the cycle before (C20), so
  that the completeness rule of `summarize_cycles` lets the new cycle pass and the summary reports it with the discharge
  capacity of the one before (`C159_started_violated`).  Steps without an ending status are not added
  (`C159_status_violated`).
* C62 `base.py` 792–800: the energy efficiency is computed before erroneous energies are
  removed, so a row reports an efficiency for an energy it reports as missing
  (`C62_efficiency_violated`).
* C124 `biologic.py` 49-56: the line counter is advanced before the header test, so a header on the last of the
  searched lines is not found (`C124_header_violated`); 80-82: the header line is split with its line end, so a
  configured column that comes last makes the file unreadable (`C124_last_column_violated`).
* C126 `biologic.py` 122: `replace(".csv", ".mpl")` leaves `.txt` paths alone, so the export is parsed as its own metadata, and
  changes directories (`C126_path_violated`, `C126_directory_violated`); 175-181: `str(line)` of bytes is the escaped literal
  (`C126_apostrophe_violated`, `C126_backslash_violated`, `C126_bytes_violated`); 186: A11 and K1 are both 111, and a channel
  without a letter is sixteen less (`C126_channel_violated`, `C126_number_violated`); 191
  (`C126_colon_violated`); 199-205: the text keeps growing after the empty line (`C126_order_violated`).
* C130 `MaccorEIS.from_file` keeps the end of line in `method` and `filename`, and gives the spectrum a dictionary as
  metadata, on which `EIS.as_dict` calls `to_dict`: every spectrum read from a file fails to serialise (`C130_line_end_violated`,
  `C130_dictionary_violated`).
* C131 `load_eis` uses the path of the run as a glob pattern: brackets in it miss its spectra and find those of other runs, and a
  run without an extension is read as its own spectrum; the documented single path is read letter by letter
  (`C131_bracket_violated`, `C131_class_violated`, `C131_no_dot_violated`, `C131_text_violated`).
* C143 `maccor.py` 86-88: columns are renamed without a look at names already in use: a Maccor file with `Amps` and `Current` has two
  columns `current` afterwards, and `data["current"]` is a table.
* C144 `maccor_conversion.yaml` 53, 68-83: step numbers outside 16 bits wrap around (40000 becomes -25536), user variables of 65536 and
  more become infinite, without an error.
* C145 `arbin_conversion.yaml` 42, `arbin.py` 48-75: `datetime` is cast to `float32` before `date_time_iso` is computed from it. Times of
  our decades (2^30 to 2^31 s) then are multiples of 128 s: `date_time_iso` is wrong by up to 64 s for all other records, and
  `charge_duration` (base.py 826-833) and the pauses of an Arbin test are multiples of 128 s. A ten-minute charge is stored as 512 or 640 s.
* C146 Novonix: column names in line 500 are refused although 500 lines are announced (the counter is compared after
  it has been increased). Blank lines are counted by the search and skipped by `read_csv`: with one blank line above the
  column names the first record is taken for the column names and is lost.
* C147 Novonix metadata: a value with a colon keeps only what follows the last colon (times, paths); in files with
  Windows line ends each value ends with the two characters `\r`; the first phrase that occurs anywhere in the line
  decides, so "Description: Cell 7" is stored as the cell and the description stays empty. A byte beyond ASCII, such as a
  degree sign, becomes the four characters `\xNN` (`C147_bytes_violated`).
* C148 Novonix times are published in hours under `test_time` and `step_time`, which hold seconds for every other
  cycler. Neware step times with days lose the days.
* C153: what is reported for a finished cycle can change when the test goes on.  With cycles numbered
  from 1 the charge duration of the last cycle is filled in from the next cycle
  (`C153_duration_violated`).  When a diagnostic cycle has begun, the last regular cycle disappears from
  the summary (`C153_disappears_violated`).  A later, larger charge moves the grid of all earlier
  interpolated charges (`C153_grid_violated`).
* C161 `splice.py` 92-94 moves every counter on its own by the last value of the first file, and only if it restarts: a file that goes
  on where the second file stopped is put at another place when the first two files are spliced first than when the last two are.
* C162 `biologic.py` 133-136 computes `test_time` as the difference of local clock times without time zone, unlike `date_time_iso` two
  lines above: after the beginning of daylight saving time every test time is one hour too long, after its end one hour too short, and
  it decreases there.
* C164 the summary of a run whose cycles are numbered from 1 differs from that of the same run numbered from 0 in `charge_duration` (line 830,
  see C14); no other column depends on the numbering, the clocks or the units.
* C168 `interpolate_df`: of several rows at a grid point only the first is kept after the merge; if it has a gap and nothing was read before,
  the reading of the next row at the same point is lost (`C168_lost_violated`), and the order of such rows matters (`C168_order_violated`).
* C169 the constructor adds missing columns to the table of the caller (`C169_construct_violated`), and structuring writes the minutes of
  the cycle into the raw table, which another datapath may share (`C169_shared_violated`).
* C170 `exclude_cycles` is not among the recorded parameters (`C170_exclude_violated`).
* C172 gaps of training samples are filled with medians over all samples, the test samples included (`C172_imputed_violated`), and gaps
  of test samples can remove a feature from the training set (`C172_gaps_violated`).
* C173 a splitter and a prediction rename the columns of the caller's matrix in place, also when they then raise (`C173_renamed_violated`);
  an experiment made afterwards strips a second part and its features are named "a" instead of "a::F" (`C173_history_violated`).
* C174 `click.Context.exit(1)` is called on the class (cmd.py:596, 811, 819, 902, 1323, 1486), so the exit code is 0 after Ctrl-C
  (`C174_interrupted_violated`) and for an unknown featurizer (`C174_unknown_violated`).
* C175 Ctrl-C during `beep train` or `beep predict` exits with 0 (`C175_interrupted_violated`).  `beep protocol` ignores
  `--halt-on-error`, takes Ctrl-C like any other exception (cmd.py:1591) and exits with 0 whatever happened to the rows
  (`C175_protocol_violated`, `C175_protocol_interrupted_violated`).
* C177 Loading writes into the dictionary it is given: every listed column becomes a `pd.Series` there (base.py:428), so the
  dictionary can no longer be written as JSON (`C177_unchanged_violated`).
* C178 An Indigo file that has the old index of its table in a column `index` (or `level_0`) is refused: the second
  `reset_index` (indigo.py:60-62, "twice in case old index is stored in file") inserts a name that is taken
  (`C178_stored_index_violated`).
* C179 A feature matrix of no featurizers cannot be saved (`C179_empty_violated`); a tuple among the hyperparameters comes back
  as a list, so that the loaded matrix has other column names (`C179_tuple_violated`), and a matrix with a tuple and the equal list
  cannot be loaded at all (`C179_refused_violated`; features/base.py:243, 310-311, 326).
* C182 A location of digits, such as a year, given to the retrigger script is turned into a number, the words True, False and None into Python values (`C182_number_violated`, `C182_word_violated`;
  utils/retrigger.py:62-69).
* C165 `to_json_file` empties the file and then writes it: a crash in between loses what was saved before. Nothing incomplete is ever read as complete.
* C166 `beep structure` does not check that an output is not an input; with an output written over its input a kill in the middle destroys the
  input.  Otherwise a killed batch can be started again.
* C167 the rules `max_at_least` and `min_is_below` reject every run that has not yet reached the bound: a file validated while the cycler is
  still recording can be rejected although the finished file is valid.

### Protocol conversion (`beep/protocol`)

* C23 `maccor_to_biologic_mb.py`: the step number used at line 1130 is that of the Do step, whose
  first sequence is the one after it, and the comparison with "Adv Cycle" at 1142 never
  matches.  A loop body that begins with AdvCycle (`C23_first_adv_violated`), a loop over a
  single sequence (`C23_single_violated`) and a repeated technique that begins with AdvCycle
  (`C23_lead_violated`) are misnumbered.
* C24 loops that are never closed are accepted (`C24_unclosed_violated`).
* C26 only the last sequence mapping survives, lines 849-855 (`C26_dropped_violated`,
  `C26_mappers_violated`).
* C27 a step with a single end entry is never filtered, line 688 (`C27_single_violated`).
* C28 the first part of a split step loses the original end entries (`C28_first_part_violated`).
* C29 fractional hours and minutes are truncated (`C29_time_hours_violated`), voltages lose digits
  (`C29_volts_violated`), "Ohms" is not recognised on the way back (`C29_ohms_back_violated`).
* C30 `biologic_mb_to_maccor.py` 320-322: every charge becomes a discharge
  (`C30_charge_violated`).
* C31 the loop count goes to the wrong field and is one too low (`C31_count_violated`); 745
  passes step numbers where sequence numbers are expected (`C31_goto_violated`).
* C32 `maccor_to_arbin.py`: the comparison of current ends is reversed for discharges
  (`C32_discharge_violated`), times of a day or more and "::45" raise (`C32_time_violated`),
  limit indices with reports are 0 and 5 (`C32_reports_violated`).
* C33 loops opened by the first two steps are not found, line 128 (`C33_start_violated`,
  `C33_nested_violated`).
* C34 `arbin.py`: a section without plain entries is unreadable (`C34_empty_violated`), plain
  entries at top level are not written (`C34_top_level_violated`).
* C35 blanks at the ends of values are lost (`C35_blank_violated`), wide values shift the columns
  (`C35_wide_violated`).
* C36 `maccor.py`: durations wrap at 24 hours (`C36_charge_day_violated`,
  `C36_discharge_day_violated`).
* C38 close values give identical consecutive lines (`C38_lines_differ_violated`); a waveform of
  zeros is a charge line without value (`C38_zeros_violated`).
* C39 `insert_driving_parametersv1` writes into the shared default configuration
  (`C39_violated`).
* C56 an exception of one builder ends the whole run (`C56_raises_violated`).
* C60 a missing label is no error (`C60_missing_violated`).
* C61 `set_skip_to_end_diagnostic` ignores steps with a single end entry (`C61_set_skip_violated`).
* C64 a C-rate with a voltage limit becomes amperes or loses the limit (`C64_rate_violated`).
* C65 converting a procedure with a loop twice raises (`C65_twice_violated`).
* C72 an End step before the last step becomes a rest that goes on to the next step, lines 302 and
  349 (`C72_end_violated`).
* C73 `insert_driving_parametersv1` never sets the limit of discharge lines, which stays at 2.7 V
  whatever cutoff is requested (`C73_limit_violated`).
* C74 the names of driving waveforms leave out the limits and the fraction of the power
  (`C74_driving_violated`).
* C75 `utils/waveform.py` 207 counts half at the borders, so a waveform begins at half the rate
  (`C75_start_violated`); the assertion at 106 compares `np.all(...)` with zero and accepts
  windows out of order, whose rates are added up (`C75_overlap_violated`).
* C77 a mile is taken as 1600 m, `utils/waveform.py` 29 (`C77_mile_violated`).
* C121 `maccor.py` 334: `waveform_filename.split(".")[0]` cuts the path at its *first* dot.  With a dot in a
  directory (`./x.mwf`, `/data/v1.2/x.mwf`) or in the file name, the step plays a waveform of another name,
  or of the empty name (`C121_name_violated`).
* C121 `maccor.py` 660-674: a driving procedure never writes `diagnostic_start_cycle`, `diagnostic_interval` and
  `discharge_rest_time`; the loop counts and rests are those of the template (`C121_loops_violated`).
* C122 `maccor.py` 751-753: `generate_procedure_chargingv1` overwrites three entries of the parameters it is given.
* C123 `arbin.py` 128-141: a template without CC1 and CC2 steps is returned as the schedule (`C123_missing_violated`).
* C138 `biologic.py` 84-98: a header line with a colon but without " : " is an entry of one text, and `OrderedDict` raises. 71-81: `lines_to_parse`
  starts from all lines for every technique, so the tables of all techniques but the last are filed as metadata and written twice.
  177: `data.unset` takes the *value* of a header line for a path: the comment "Metadata" deletes the document being written.
  Lines with the same name overwrite each other, and the value "blank" becomes an empty line.
* C139 `maccor_to_biologic_mb.py` 71 writes the header line "Safety Limits :", which `Settings` refuses (C138): no converted procedure
  can be read by `Settings.from_file` or converted back by `BiologicMbToMaccorProcedure`.
* C152 A Maccor procedure does not survive the way to Biologic and back. Charge steps come back as discharge steps. The limit type
  `|I|` that one converter writes for currents is refused by the other, and so is the sequence number 9999 that stands for the End
  step. Loops lose their count, cycle advances outside loops are lost, nested loops (two techniques) are refused.
* C160 `maccor_to_biologic_mb.py` 625 keeps the count of an outer loop, although 1016-1019 reduces the count of every other loop by one
  because "the way maccor and biologic count loops varies by 1": every loop around a loop is run once more (`C160_outer_violated`).
* C163 `biologic_mb_to_maccor.py` 258 stores the loop count under "StepValue"; the "Value" that Maccor procedures have stays empty, so
  techniques that differ only in their counts become the same procedure (`C163_count_violated`). Line 745 passes step numbers for
  sequence numbers: a jump from sequence 0 to sequence 2 runs the step of sequence 1 (`C163_jump_violated`).

### Features, learning and command line

* C88 `maccor_to_biologic_mb.py` 990-994: the rules allow a jump to the first step of the next technique and
  the range check lets it pass, but line 356 looks its sequence up in a table of the technique's own
  steps and fails with a KeyError (`C88_next_technique_violated`).
* C83 `core.py:190-193`: `discharging_energy` is taken from the rows of charge steps
  (`C83_energy_violated`); values come in a fixed order while labels follow the hyperparameter, so
  every other order of `statistics` mislabels (`C83_order_violated`, also `C84_order_violated`);
  fewer than seven statistics are refused (`C83_subset_violated`).
* C85 `core.py:541, 582`: `init_pred_cycle` and `n_nominal_cycles` have no effect
  (`C85_ignored_violated`, `C85_init_violated`, `C85_nominal_violated`); curves are selected by
  cycle index while the summary is read by position (`C85_numbering_violated`);
  `X[5:11] = np.nan` addresses rows, so features of missing curves are 0 (`C85_empty_violated`).
* C86 validated data raise: too few rows in spite of large labels (`C86_deltaQ_violated`), curves of
  different length (`C86_cycles_violated`), diagnostics of the three fixed types missing
  (`C86_diagnostic_violated`), cycling without an interruption by diagnostics
  (`C86_degradation_violated`).
* C90 `featurizer_helpers.py` 484-515: if the last cycle of the first block has no value, the unit is NaN
  and `fillna(0)` reports all throughputs as zero (`C90_missing_violated`).
* C91 `core.py` 808-916: `cycle_type` and `metric` only enter the column names, the curve is drawn
  through the rows of all types and quantities (`C91_ignored_violated`); diagnostics that share the
  smallest throughput (those before the first regular cycle) make a division by zero whose NaN is taken
  for the closest place, so extrapolation is refused (`C91_extrapolate_violated`); line 843 builds the
  featurization error without raising it (`C91_not_crossed_violated`).
* C92 `core.py` 829-833: the second difference is compared without its absolute value
  (`C92_smooth_violated`).
* C93 `core.py` 973-985, 1072: without a row for cycle `n` the criterion is NaN, which counts as true
  (`C93_short_violated`).
* C100 `featurizer_helpers.py` 116: the steps are the second to fifth distinct step numbers, whatever
  their role; a cycle without a first charge step mixes up rest and pulse (`C100_roles_violated`).
* C101 `featurizer_helpers.py` 46: `iloc[-10].mean()` is the tenth point from the end, not the mean of the
  last ten (`C101_mean_violated`); the rows are not sorted by time (`C101_order_violated`); one rest of
  fewer than ten rows raises (`C101_short_violated`).
* C102 `featurizer_helpers.py` 257: the later cycle's step is looked up at `diag_pos=1`, so other
  positions with other step numbers have no columns (`C102_steps_violated`); line 254 drops capacities
  from 8 Ah on (`C102_large_violated`); lines 285-287 delete the points they mean to keep
  (`C102_nodes_violated`).
* C103 one short rest of fewer than five rows raises for the whole cycle (`C103_short_violated`).
* C104 `core.py` 55 does not pass `parameters_path` on to the diffusion features
  (`C104_path_violated`); columns depend on the data (`C104_columns_violated`).
* C105 `core.py` 1128-1136: types whose first cycle does not have two steps are silently left out
  (`C105_skipped_violated`); a channel without any value stays missing in spite of imputation
  (`C105_impute_violated`); charge after discharge is reported too low (`C105_discharged_violated`); if all types are
  left out `ValueError` is raised (`C105_nothing_violated`).
* C106 a run without parameters passes validation and raises `TypeError` (`C106_missing_violated`).
* C107 `intracell_analysis.py` 722-725: the absolute value is missing, so the place at which a loss of negative
  material leaves the electrode is that of the lowest voltage, not that of 2.7 V (`C107_lower_violated`); electrode
  files must have exactly 1001 rows (`C107_rows_violated`).
* C108 `intracell_analysis.py` 925-934: states of charge are counted from the first common row, whatever the voltage
  of the full cell is there (`C108_center_violated`).
* C109 `intracell_analysis_v2.py` 1049-1322: the columns for 4.2 V are filled even if the cell stays below 3 V
  (`C109_reach_violated`); `intracell_analysis.py` 1249-1258: on a voltage plateau the state of charge of its first row is
  reported (`C109_v1_violated`).
* C110 the step type is ignored: charge rows are used for a discharge (`C110_step_violated`,
  `C110_initial_step_violated`).
* C111, C86 one usable diagnostic passes validation, but the features need two (`C111_single_violated`,
  `C86_intracell_violated`).
* C112 a blend is scaled to end at 100 but does not start at 0 (`C112_start_violated`); with the default fraction of 1 the
  first material only contributes its voltage range (`C112_default`).
* C113 `intracell_analysis_v2.py` 800-801: `dQdV` minimises the error of dV/dQ for synthetic data
  (`C113_synthetic_violated`).
* C133 the `dVdQ` error compares points above 0.5 Ah: with a measured profile up to 0.5 Ah none is left, and the mean of no
  distances is NaN, whatever the parameters (`C133_small_violated`).
* C135 `ewm(0.1).mean()` carries the last mean over rows without a slope: the emulated profile gets a `dVdQ` at capacities at
  which it has no voltage (`C135_gap_violated`).
* C140 `intracell_analysis.py` 477-485 blends the second material of the anode only if both of its files are given; with one file the
  initial match ignores `x_NE_2`, although `_impose_electrode_scale` and the degradation fits blend with that one file.
* C141 `_get_error_from_degradation_matching` catches only `ValueError`; electrodes without a common voltage raise `KeyError` (from
  `.loc` of a NaN index) and end the search. `_get_error_from_halfcell_initial_matching` catches nothing. The penalty of 0.001 per
  missing row is so small that a fit which loses half of the profile beats a fit that is 0.1 V off everywhere.
* C142 `get_dVdQ_over_V_from_halfcell_initial_matching` (286-291) computes `np.gradient(SOC, Voltage)`: it returns dQdV under the
  name dVdQ.
* C150 `get_dQdV_over_V_from_halfcell_initial_matching` takes the last two of its parameters as weights of the smoothing. With the
  two or three parameters that `halfcell_initial_matching_v2` documents these are ratio and offset, or offset and fraction: every
  offset that is not in (0, 1] raises `ValueError`.
* C151 The penalty for missing emulated derivatives is never added: `dQdV` is filled with 0 first, and `distance.euclidean` refuses
  NaN. A single missing voltage in the first row gives the error 1000 (initial match: any missing voltage raises). Two profiles that
  are equal have a positive error when `alpha_real` and `alpha_emulated` differ. Electrodes without a common voltage raise `KeyError`,
  which is not caught.
* C86 also: hppc cycles at other positions or under other names (`C86_hppc_violated`), types that are not
  in the data (`C86_image_violated`), capacities far above 1.1 Ah (`C86_trajectory_violated`).
* C87 the filtered data replace `datapath.diagnostic_data` (`C87_unchanged_violated`), which changes
  the features of later featurizers (`C87_alone_violated`).
* C46 column names of different hyperparameters can coincide (`C46_same_keys_violated`,
  `C46_types_violated`).
* C48 a split column that is also a feature makes every sample its own group
  (`C48_groups_violated`).
* C49 `model.py` 138 uses the sample threshold for features (`C49_linear_violated`,
  `C49_linear_complete_violated`); split columns count in the sample fraction
  (`C49_sample_violated`); a kept column can be empty on the kept rows (`C49_complete_violated`).
* C50 `as_dict` of the splitter omits three settings (`C50_violated`, `C50_impute_violated`).
* C51 the dropped list names every sample (`C51_dropped_violated`); extra columns change the
  outcome (`C51_extra_violated`); an absent feature raises (`C51_absent_feature_violated`).
* C52 `predict` renames the columns of its argument (`C52_violated`).
* C53 the scaler is fitted again on reload, on different rows (`C53_subset_violated`,
  `C53_targets_violated`, `C53_own_violated`).
* C71 missing features are imputed from the prediction matrix, so a prediction depends on the other
  samples of the call (`C71_violated`).
* C54 a missing file ends the batch (`C54_missing_violated`); an output that is a later input
  changes that result (`C54_overwritten_violated`).
* C55 inputs with the same stem overwrite each other's output (`C55_violated`,
  `C55_lost_violated`).
* C68 a missing or unloadable file ends `beep featurize` (`C68_unreadable_violated`);
  `DeltaQFastCharge` overwrites `n_nominal_cycles` (`C68_parameters_violated`); featurizers that
  filter the diagnostic data change the shared datapath (`C68_isolation_violated`); intermediate
  files coincide (`C68_intermediate_violated`).
* C54 `cmd.py` 578: `autostructure` does not exist, with `--automatic` no file is structured
  (`C54_automatic_violated`).
* C98 `project_transfer.py` 92-103: the new file is uploaded before it is closed, small objects arrive
  empty (`C98_empty_violated`); other projects are included (`C98_list_violated`); new keys can coincide
  (`C98_collision_violated`).
* C114 `cmd.py`: the thresholds of the training data and `--l1-ratios` are passed under names the constructor
  does not have, so no model is ever written with them (`C114_thresholds_violated`); the condition for the grid
  of alphas is inverted (`C114_alphas_violated`).
* C115 errors of a model trained on all data are not reported (`C115_errors_violated`); missing files and
  unreadable l1 ratios leave no status (`C115_missing_violated`).
* C116 held-out features change the values imputed for training samples (`C116_leak_violated`).
* C117 the threshold 0 of `beep predict` has no effect (`C117_zero_violated`).
* C118 `cmd.py` 1583: the list of failures is bound to a name that is not used (`C118_failures_violated`); an
  exception for one row hides the files of the others (`C118_raises_violated`).
* C119 `parameters_lookup.py` 160-172: `range` of a float, when a run of the project has no start
  (`C119_float_violated`).
* C99 `cmd.py` 468-479: objects of the same base name overwrite each other and local files
  (`C99_same_name_violated`, `C99_overwritten_violated`).
* C155 A processed file without a class is loaded as Arbin data whatever cycler it is from, although the
  documentation promises a `BiologicDatapath` (`C155_cycler_violated`).  Its file is recorded by its
  absolute path, that of a file with a class as the caller wrote it, which also changes
  `semiunique_id` (`C155_path_violated`).
* C156 `beep inspect` prints the text `{file}` instead of the file for featurizers
  (`C156_featurizer_violated`), and passes on exceptions other than value, key and attribute errors
  (`C156_refusal_violated`).
* C157 The id of a run joins its metadata at colons without marking missing values: a colon in the barcode or the
  barcode "None" makes different runs share an id (`C157_separator_violated`, `C157_none_violated`).
* C158 `retrigger.py` cannot be started, because `KinesisEvents` is no longer in `beep.utils` (`C158_import_violated`).
  Apart from that: an empty location raises (`C158_empty_violated`); `list_objects_v2` is called once, so that only 1000
  objects are looked at (`C158_pages_violated`); keys with the letter x are skipped (`C158_letter_violated`); a
  recent structured file does not count if another object begins with its name (`C158_companion_violated`); files
  that agree up to their first dot share a structured file (`C158_shared_violated`).

## 6. Mutation tests

`seeded/LOG.jsonl` has one line per edit of the model that was built in a scratch copy: the
definition, the edit, the claim it breaks, the theorems that no longer prove, and the theorems
that were tightened because of it.
