import Verif.Model.FastCharge
/-
Model of the file level part of `ProcedureToSchedule.create_sdu`,
beep/protocol/maccor_to_arbin.py 46-107: the steps of a schedule file are replaced by the steps
compiled from a procedure.  The compiled steps (138-389, Model/MaccorToArbin) are given as
dictionaries; numbers are exact rationals; the keys of the file contain no dot, bracket or
backslash (see Model/Dash).
-/
namespace Beep.Arbin
open Beep Beep.Dash Beep.Pandas

/-- `re.match(p + '[0-9]+', key)`: the key starts with `p` and a digit (maccor_to_arbin.py:74, 76) -/
def startsNumbered (p key : Str) : Bool :=
  p.isPrefixOf key && match key.drop p.length with
    | c :: _ => '0' ≤ c && c ≤ '9'
    | [] => false

/-- the prefix of the keys of steps (maccor_to_arbin.py:74, 103) -/
def kStep : Str := "Step".toList
/-- the prefix of the keys of safety sections (maccor_to_arbin.py:76) -/
def kSafety : Str := "UserDefineSafety".toList

/-- the loop over the keys, maccor_to_arbin.py:70-79: the section without steps and safety
sections, and the saved safety sections -/
def sweep : List Str → Obj → List (Str × Val) → Except Err (Obj × List (Str × Val))
  | [], s, saved => .ok (s, saved)
  | k :: ks, s, saved =>
    if startsNumbered kStep k then sweep ks (s.del k) saved
    else if startsNumbered kSafety k then
      match s.find k with
      | some v => sweep ks (s.del k) (saved ++ [(k, v)])
      | none => .error .keyError
    else sweep ks s saved

/-- the decimal digits of a number of millionths with the point (maccor_to_arbin.py:85-89) -/
def millionths (k : Nat) : Str :=
  let f := Nat.toDigits 10 (k % 1000000)
  Nat.toDigits 10 (k / 1000000) ++ '.' :: (List.replicate (6 - f.length) '0' ++ f)

/-- `"{:.6f}".format(x)` (maccor_to_arbin.py:85-89) -/
def fixed6 (x : Rat) : Str :=
  if x < 0 then '-' :: millionths (roundEven (-x * 1000000)).toNat
  else millionths (roundEven (x * 1000000)).toNat

/-- a safety range: minimum, `^`, maximum (maccor_to_arbin.py:84-89) -/
def scope (r : Rat × Rat) : Str := fixed6 r.1 ++ '^' :: fixed6 r.2

/-- the key of a step, maccor_to_arbin.py:103 -/
def stepKey (i : Nat) : Str := kStep ++ Nat.toDigits 10 i

/-- the entries of the section that are overwritten, maccor_to_arbin.py:82-92, given the number of
steps -/
def header (n : Nat) (v t c : Rat × Rat) : List (Str × Val) :=
  [("m_uStepNum".toList, .str (Nat.toDigits 10 n)),
   ("m_VoltageSafetyScope".toList, .str (scope v)),
   ("m_AuxTempSafetyScope".toList, .str (scope t)),
   ("m_CurrentSafetyScope".toList, .str (scope c))] ++
  if t = (-100, 100) then [] else
    [("m_AuxSafetyEnabled".toList,
      .str "0^0 ; 1^1 ; 2^0 ; 3^0 ; 4^0 ; 5^0 ; 6^0 ; 7^0 ; 8^0 ; 9^0 ; 10^0 ; 11^0".toList)]

/-- the steps with their keys, maccor_to_arbin.py:93-105 -/
def numbered : Nat → List Obj → List (Str × Val)
  | _, [] => []
  | i, s :: ss => (stepKey i, .obj s) :: numbered (i + 1) ss

/-- `schedule.set("Schedule." + key, value)` one after the other, maccor_to_arbin.py:82-107 -/
def setEntries : Obj → List (Str × Val) → Except Err Obj
  | o, [] => .ok o
  | o, (k, w) :: r => do setEntries (← setP o [kSchedule, k] w) r

/-- `create_sdu`, maccor_to_arbin.py:46-107, from the schedule file as read to the dictionary that
is written; `v`, `t`, `c` are the global ranges of voltage, temperature and current -/
def createSchedule (shell : Obj) (steps : List Obj) (v t c : Rat × Rat) : Except Err Obj := do
  match shell.find kSchedule with
  | some (.obj s) =>
    let (s', saved) ← sweep s.keys s []
    let o := shell.put kSchedule (.obj s')
    let o ← setEntries o (header steps.length v t c)
    let o ← setEntries o (numbered 0 steps)
    setEntries o saved
  | some (.str _) => .error .attributeError
  | none => .error .keyError

end Beep.Arbin
