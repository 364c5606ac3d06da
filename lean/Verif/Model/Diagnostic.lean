import Verif.Model.Py
/-
Model of beep/structure/diagnostic.py.
-/
namespace Beep.Diagnostic

/-- A keyword argument value; `other` stands for every type outside
`(int, str, float, bool)` (diagnostic.py:96).  Floats as integers scaled by a
power of ten (simplification, the value is only stored). -/
inductive KwVal where
  | int (i : Int)
  | str (s : String)
  | float (mantissa : Int) (exponent : Int)
  | bool (b : Bool)
  | other (tag : Nat)
  deriving DecidableEq, Repr

/-- `isinstance(arg, allowed_kwarg_types)`, diagnostic.py:96-98 -/
def KwVal.allowed : KwVal → Bool
  | .other _ => false
  | _ => true

/-- The attributes set by `DiagnosticConfig.__init__`, diagnostic.py:70-106.
A `frozenset` is a duplicate free list (iteration order unspecified in Python;
no theorem depends on it). -/
structure Config where
  cycles : Dict String (List Int)
  typeByIx : Dict Int String
  hppcIx : List Int
  rptIx : List Int
  resetIx : List Int
  allIx : List Int
  params : Dict String KwVal
  deriving DecidableEq, Repr

/-- inner loop of diagnostic.py:82-84: record one index of one type -/
def recordType (t : String) (m : Dict Int String) (i : Int) : Dict Int String := m.set i t

/-- diagnostic.py:81-84: nested loop filling `cycle_ix_to_cycle_type` -/
def buildTypeByIx (cycles : Dict String (List Int)) : Dict Int String :=
  cycles.foldl (fun m p => p.2.foldl (recordType p.1) m) []

/-- diagnostic.py:87-94: union of the index sets of the types whose lower case
name contains `attr` -/
def ixFor (attr : String) (cycles : Dict String (List Int)) : List Int :=
  unique ((cycles.filter (fun p => containsSub attr.toList (lower p.1))).map Prod.snd).flatten

/-- `DiagnosticConfig.__init__`, diagnostic.py:59-106 -/
def init (d : Dict String (List Int)) (kw : Dict String KwVal) : Except Err Config :=
  if d.isEmpty then .error .valueError                                        -- 64-68
  else
    let cycles : Dict String (List Int) := d.map (fun p => (p.1, unique p.2)) -- 70-71
    let ixNonUnique := cycles.map Prod.snd                                     -- 73
    let ixUnique := unique ixNonUnique.flatten                                 -- 74
    if (ixNonUnique.map List.length).sum ≠ ixUnique.length then .error .valueError  -- 76-80
    else
      let m := buildTypeByIx cycles                                            -- 81-84
      if kw.any (fun p => !p.2.allowed) then .error .typeError                 -- 96-100
      else .ok
        { cycles := cycles
          typeByIx := m
          hppcIx := ixFor "hppc" cycles
          rptIx := ixFor "rpt" cycles
          resetIx := ixFor "reset" cycles
          allIx := m.keys                                                      -- 102
          params := kw }                                                       -- 101

/-- the two columns of the raw data read by `from_step_numbers` (diagnostic.py:109-203) -/
structure Row where
  cycleIndex : Int
  stepIndex : Int
  deriving DecidableEq, Repr

/-- `df_raw[df_raw["cycle_index"] == cix]["step_index"].unique()`,
diagnostic.py:191, 195 -/
def stepsOf (rows : List Row) (c : Int) : List Int :=
  unique ((rows.filter (fun r => r.cycleIndex = c)).map Row.stepIndex)

/-- one step pattern against one cycle, diagnostic.py:195-202 -/
def patternHit (matchType : String) (uniq pattern : List Int) : Bool :=
  let allPresent := pattern.all (fun sn => uniq.contains sn)
  if matchType == "contains" && allPresent then true
  else allPresent && uniq.length == (unique pattern).length

/-- `for step_pattern in match_step_pattern: ... break`, diagnostic.py:193-202 -/
def anyHit (matchType : String) (uniq : List Int) : List (List Int) → Bool
  | [] => false
  | p :: ps => if patternHit matchType uniq p then true else anyHit matchType uniq ps

/-- the loop body for one cycle, diagnostic.py:192-202: every type whose pattern
hits gets the cycle added to its set -/
def addCycle (rows : List Row) (criteria : Dict String (String × List (List Int)))
    (acc : Dict String (List Int)) (c : Int) : Dict String (List Int) :=
  criteria.foldl (fun acc p =>
      if anyHit p.2.1 (stepsOf rows c) p.2.2 then
        acc.modify p.1 (· ++ [c])   -- `all_diag_ix[cycle_type].add(cix)`; the key exists, see 189
      else acc)
    acc

/-- `DiagnosticConfig.from_step_numbers`, diagnostic.py:109-203.
`hasStepColumn` is the test at 178. -/
def fromStepNumbers (hasStepColumn : Bool) (rows : List Row)
    (criteria : Dict String (String × List (List Int))) (kw : Dict String KwVal) :
    Except Err Config :=
  if !hasStepColumn then .error .valueError                                        -- 178-181
  else if criteria.any (fun p => !(p.2.1 == "contains" || p.2.1 == "exact")) then
    .error .valueError                                                             -- 183-187
  else
    let start : Dict String (List Int) := criteria.map (fun p => (p.1, []))        -- 189
    let all := (unique (rows.map Row.cycleIndex)).foldl (addCycle rows criteria) start
    init all kw                                                                    -- 203

/-- the dictionary produced by `as_dict` (the `@module`/`@class` tags are
constant and omitted), diagnostic.py:219-236 -/
structure Serialized where
  cycleTypeToIx : Dict String (List Int)
  params : Dict String KwVal
  deriving DecidableEq, Repr

/-- `as_dict`, diagnostic.py:219-236 -/
def asDict (c : Config) : Serialized := ⟨c.cycles, c.params⟩

/-- `from_dict`, diagnostic.py:206-217 -/
def fromDict (s : Serialized) : Except Err Config := init s.cycleTypeToIx s.params

end Beep.Diagnostic
