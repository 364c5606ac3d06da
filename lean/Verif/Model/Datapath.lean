import Verif.Model.Diagnostic
/-
Model of the object life cycle of `BEEPDatapath`, beep/structure/base.py:
construction, structuring, unstructuring, diagnostic assignment, guards, and
saving / loading.  The four numerical computations of `structure` are inputs.
-/
namespace Beep.Datapath

/-- a value stored in a frame, a metadata or a parameter dictionary (base.py:360-462) -/
inductive Val where
  | num (q : Rat)
  | nan
  | str (s : String)
  | null
  deriving DecidableEq, Repr

/-- `to_dict("list")` form of a frame: column name to column (base.py:360-462) -/
abbrev Cols := Dict String (List Val)

/-- a pandas frame: row labels and columns (base.py:360-462) -/
structure Frame where
  index : List Int
  cols : Cols
  deriving DecidableEq, Repr

/-- `pd.DataFrame(d)` for a dict of lists of equal length: rows are labelled `0..n-1`
(base.py:360-462) -/
def frameOf (c : Cols) : Frame :=
  { index := match c with
      | [] => []
      | (_, v) :: _ => (List.range v.length).map Int.ofNat
    cols := c }

/-- `pd.DataFrame(None)`: the empty frame (base.py:360-462) -/
def emptyFrame : Frame := ⟨[], []⟩

/-- file system and path functions used by the code (base.py:313-357) -/
structure Env where
  fileExists : String → Bool
  isAbs : String → Bool
  abspath : String → String
  /-- `os.path.join(VALIDATION_SCHEMA_DIR, s)` -/
  inSchemaDir : String → String
  /-- `os.path.split(s)[-1]` -/
  baseName : String → String

/-- instance attributes, base.py:188-277.  `metadata` is `CyclerRunMetadata.raw`; its
attributes `barcode`, `protocol`, `channel_id` are `get`s on it (base.py:153-158). -/
structure Datapath where
  raw : Option Frame
  metadata : Dict String Val
  paths : Dict String (Option String)
  schema : Option String
  summary : Option Frame := none
  data : Option Frame := none
  diagData : Option Frame := none
  diagSummary : Option Frame := none
  diagnostic : Option Diagnostic.Config := none
  params : Dict String Val := []
  legacy : Bool := false
  deriving DecidableEq, Repr

/-- `IMPUTABLE_COLUMNS`, base.py:81 -/
def imputable : List String := ["temperature", "internal_resistance"]

/-- base.py:199-204: a missing imputable column is added, filled with NaN -/
def imputeCol (f : Frame) (c : String) : Frame :=
  if f.cols.has c then f else { f with cols := f.cols.set c (f.index.map (fun _ => Val.nan)) }

/-- the loop over the imputable columns, base.py:198-203 -/
def impute (f : Frame) : Frame := imputable.foldl imputeCol f

/-- base.py:206-220.  `""` counts as no schema. -/
def resolveSchema (env : Env) : Option String → Except Err (Option String)
  | none => .ok none
  | some s =>
    if s = "" then .ok (some s)
    else
      let a := if env.isAbs s then s else env.inSchemaDir s
      if env.fileExists a then .ok (some a)
      else if env.fileExists (env.inSchemaDir (env.baseName s)) then
        .ok (some (env.inSchemaDir (env.baseName s)))
      else .error .fileNotFound

/-- base.py:191-197 -/
def checkPaths (env : Env) (paths : Dict String (Option String)) : Except Err (Dict String (Option String)) :=
  if paths.isEmpty then .ok [("raw", none)]
  else if paths.any (fun p => match p.2 with
      | none => false
      | some s => s ≠ "" && !env.isAbs s) then .error .valueError
  else .ok paths

/-- `BEEPDatapath.__init__`, base.py:166-277 (`paths=None` is the empty dict) -/
def construct (env : Env) (raw : Option Frame) (metadata : Dict String Val)
    (paths : Dict String (Option String)) (schema : Option String) (imputeMissing : Bool) :
    Except Err Datapath := do
  let paths ← checkPaths env paths
  let raw := if imputeMissing then raw.map impute else raw
  let schema ← resolveSchema env schema
  .ok { raw := raw, metadata := metadata, paths := paths, schema := schema }

/-- `is_structured`, base.py:1229-1236 -/
def isStructured (d : Datapath) : Bool :=
  d.summary.isSome || d.data.isSome || d.diagSummary.isSome || d.diagData.isSome

/-- decorator `must_be_structured`, base.py:88-107 -/
def mustBeStructured {α : Type} (f : Datapath → Datapath × Except Err α) (d : Datapath) :
    Datapath × Except Err α :=
  if !isStructured d then (d, .error .runtimeError) else f d

/-- decorator `must_not_be_legacy`, base.py:109-131 -/
def mustNotBeLegacy {α : Type} (f : Datapath → Datapath × Except Err α) (d : Datapath) :
    Datapath × Except Err α :=
  if d.legacy then (d, .error .valueError) else f d

/-- One call of `structure`: the parameters that are recorded and the result of each of
the four computations (summarize_diagnostic, interpolate_diagnostic_cycles,
interpolate_cycles, summarize_cycles), any of which may raise (base.py:502-563). -/
structure StructCall where
  params : Dict String Val
  diagSummary : Except Err Frame
  diagData : Except Err Frame
  data : Except Err Frame
  summary : Except Err Frame

/-- base.py:525-553, the assignments after the diagnostic part -/
def structureAging (c : StructCall) (d : Datapath) : Datapath × Except Err Unit :=
  match c.data with
  | .error e => (d, .error e)
  | .ok f =>
    let d := { d with data := some f }
    match c.summary with
    | .error e => (d, .error e)
    | .ok g => ({ d with summary := some g, params := c.params }, .ok ())

/-- `structure` without its guard, base.py:502-563: assignments happen one after the
other, so an exception leaves the earlier ones in place -/
def structureBody (c : StructCall) (d : Datapath) : Datapath × Except Err Unit :=
  match d.diagnostic with
  | some _ =>
    match c.diagSummary with
    | .error e => (d, .error e)
    | .ok f =>
      let d := { d with diagSummary := some f }
      match c.diagData with
      | .error e => (d, .error e)
      | .ok g => structureAging c { d with diagData := some g }
  | none => structureAging c d

/-- `structure`, base.py:501-563 -/
def structure_ (c : StructCall) : Datapath → Datapath × Except Err Unit :=
  mustNotBeLegacy (structureBody c)

/-- `unstructure`, base.py:565-578 -/
def unstructure : Datapath → Datapath × Except Err Unit :=
  mustNotBeLegacy fun d =>
    ({ d with data := none, diagData := none, summary := none, diagSummary := none,
              params := [], diagnostic := none }, .ok ())

/-- what a caller may assign to `.diagnostic` (base.py:490-495) -/
inductive DiagArg where
  | none
  | config (c : Diagnostic.Config)
  | other
  deriving DecidableEq, Repr

/-- the `diagnostic` setter, base.py:490-495 -/
def setDiagnostic (a : DiagArg) (d : Datapath) : Datapath × Except Err Unit :=
  match a with
  | .none => ({ d with diagnostic := none }, .ok ())
  | .config c => ({ d with diagnostic := some c }, .ok ())
  | .other => (d, .error .typeError)

/-- the dictionary made by `as_dict`, base.py:359-412.  `rawData = none` means that the
key is absent (after `pop`). -/
structure Saved where
  rawData : Option Cols
  metadata : Option (Dict String Val)
  paths : Dict String (Option String)
  barcode : Option Val
  protocol : Option Val
  channelId : Option Val
  summary : Option Cols
  cyclesInterpolated : Option Cols
  diagSummary : Option Cols
  diagInterpolated : Option Cols
  diagnostic : Option Diagnostic.Serialized
  params : Dict String Val
  schemaPath : Option String
  deriving DecidableEq, Repr

/-- the four frames in serialised form, base.py:369-379 -/
structure Frames where
  summary : Option Cols
  data : Option Cols
  diagSummary : Option Cols
  diagData : Option Cols
  deriving DecidableEq, Repr

/-- base.py:369-379; `.to_dict` on `None` is an `AttributeError` -/
def framesOf (d : Datapath) : Except Err Frames :=
  if !isStructured d then .ok ⟨none, none, none, none⟩
  else match d.summary, d.data with
    | some s, some i => .ok ⟨some s.cols, some i.cols, d.diagSummary.map Frame.cols,
        d.diagData.map Frame.cols⟩
    | _, _ => .error .attributeError

/-- `as_dict` without its guard (base.py:360-462) -/
def asDictBody (d : Datapath) : Except Err Saved :=
  match framesOf d with
  | .error e => .error e
  | .ok fs => match d.raw with
    | none => .error .attributeError
    | some r => .ok (
      { rawData := some r.cols, metadata := some d.metadata, paths := d.paths
        barcode := d.metadata.get? "barcode", protocol := d.metadata.get? "protocol"
        channelId := d.metadata.get? "channel_id"
        summary := fs.summary, cyclesInterpolated := fs.data, diagSummary := fs.diagSummary
        diagInterpolated := fs.diagData
        diagnostic := d.diagnostic.map Diagnostic.asDict
        params := d.params, schemaPath := d.schema } : Saved)

/-- `as_dict`, base.py:359-412 -/
def asDict (d : Datapath) : Except Err Saved :=
  (mustNotBeLegacy (fun d => (d, asDictBody d)) d).2

/-- `to_json_file`, base.py:338-357: what ends up in the file (json is modelled as the
identity on these dictionaries) -/
def toJsonFile (omitRaw : Bool) (d : Datapath) : Except Err Saved := do
  let s ← asDict d
  .ok (if omitRaw then { s with rawData := none } else s)

/-- `pd.DataFrame(x)` where `x` is a dict of lists or `None` (base.py:360-462) -/
def frameOfOpt : Option Cols → Frame
  | none => emptyFrame
  | some c => frameOf c

/-- `{k: d.get(k) for k in ("barcode", "protocol", "channel_id")}`, base.py:436 -/
def legacyMetadata (s : Saved) : Dict String Val :=
  [("barcode", s.barcode.getD .null), ("protocol", s.protocol.getD .null),
   ("channel_id", s.channelId.getD .null)]

/-- `from_dict`, base.py:414-462.  The dtype casts 424-428 are the identity on frames
that were cast before saving (simplification; `Model/LoadCasts` has the casts, and C176 proves this). -/
def fromDict (env : Env) (s : Saved) : Except Err Datapath := do
  let (raw, metadata, isLegacy) := match s.rawData, s.metadata with
    | some r, some m => (some (frameOf r), m, false)
    | _, _ => (none, legacyMetadata s, true)
  let d ← construct env raw metadata s.paths s.schemaPath true
  let d := { d with legacy := isLegacy, data := some (frameOfOpt s.cyclesInterpolated),
                    summary := some (frameOfOpt s.summary),
                    diagSummary := s.diagSummary.map frameOf,
                    diagData := s.diagInterpolated.map frameOf,
                    params := s.params }
  match s.diagnostic with
  | none => .ok d
  | some g =>
    let c ← Diagnostic.fromDict g
    .ok { d with diagnostic := some c }

/-- `from_json_file`, base.py:312-336 -/
def fromJsonFile (env : Env) (filename : String) (s : Saved) : Except Err Datapath :=
  fromDict env { s with paths := s.paths.set "structured" (some (env.abspath filename)) }

/-- save a datapath and load the file again (base.py:313-357, 360-462) -/
def saveLoad (env : Env) (omitRaw : Bool) (filename : String) (d : Datapath) : Except Err Datapath := do
  let s ← toJsonFile omitRaw d
  fromJsonFile env filename s

/-- the API calls of a history (the methods of base.py:27-1254 that are modelled here) -/
inductive Op where
  | structure_ (c : StructCall)
  | unstructure
  | setDiagnostic (a : DiagArg)
  | saveLoad (omitRaw : Bool) (filename : String)

/-- one call: new state and outcome.  A failing save or load leaves the object alone
(the methods of base.py:27-1254 that are modelled here). -/
def step (env : Env) (d : Datapath) : Op → Datapath × Except Err Unit
  | .structure_ c => structure_ c d
  | .unstructure => unstructure d
  | .setDiagnostic a => setDiagnostic a d
  | .saveLoad o f => match saveLoad env o f d with
    | .ok d' => (d', .ok ())
    | .error e => (d, .error e)

/-- a history in which every call returned normally
(the methods of base.py:27-1254 that are modelled here) -/
def run (env : Env) : Datapath → List Op → Except Err Datapath
  | d, [] => .ok d
  | d, o :: os => match step env d o with
    | (d', .ok ()) => run env d' os
    | (_, .error e) => .error e

/-- a history in which exceptions are caught by the caller
(the methods of base.py:27-1254 that are modelled here) -/
def runCatch (env : Env) : Datapath → List Op → Datapath
  | d, [] => d
  | d, o :: os => runCatch env (step env d o).1 os

end Beep.Datapath
