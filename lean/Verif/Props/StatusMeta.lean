import Verif.Proof.StatusMeta
/-
C180: the metadata of a status file.
-/
namespace Beep.StatusMeta
open Beep Spec.StatusMeta Proof.StatusMeta
open Beep.MaccorProcedure (digit two)

variable {V : Type}

/-- C180: a command that is not left before its end writes a status file if a name was given, under that name.  The
file holds the command's own entries, unchanged and in their order, and then the metadata: the version, the time, the
run id (null without one) and the tags in the order given. -/
theorem C180_file (version : Str) (now : Utc) (ctx : Context) (cmd : Command) (own : Dict Str V)
    (h : own.map Prod.fst = names cmd) :
    (∀ f, ctx.outputStatusJson = some f → f ≠ [] →
      finish version now ctx own = some (f, own.map (fun kv => (kv.1, Entry.own kv.2)) ++
        [("metadata".toList, .info
          [("beep_verison".toList, .text version), ("op_datetime_utc".toList, .text (stamp now)),
           ("run_id".toList, ctx.runId.elim .null .int), ("tags".toList, .texts ctx.tags)])])) ∧
    (ctx.outputStatusJson = none → finish version now ctx own = none) ∧
    (ctx.outputStatusJson = some [] → finish version now ctx own = none) := by
  refine ⟨?_, ?_, ?_⟩
  · intro f hf hne
    have hk : "metadata".toList ∉ Dict.keys (own.map (fun kv => (kv.1, Entry.own kv.2))) := by
      have : Dict.keys (own.map (fun kv => (kv.1, Entry.own kv.2))) = names cmd := by
        rw [← h]; simp [Dict.keys]
      rw [this]; cases cmd <;> decide
    simp only [finish, hf, if_neg hne, addMetadata]
    rw [set_new _ _ _ hk]
    cases ctx.runId <;> rfl
  · intro hf; simp only [finish, hf]
  · intro hf; simp only [finish, hf, if_true]

/-- a run with an id and two tags -/
example : (finish "2023.1".toList ⟨2021, 9, 4, 0, 40, 12, 345678⟩ ⟨some 7, ["b".toList, "a".toList], some "s.json".toList⟩
      (((names .structure_).zip [1, 2]) : Dict Str Nat)).map (fun p => (String.ofList p.1, p.2.map (fun kv => String.ofList kv.1))) =
    some ("s.json", ["op_type", "files", "metadata"]) := by decide +kernel

/-- the time in the metadata reads as the date and time at which it was taken, without the fraction of the second -/
theorem C180_time (u : Utc) (h : Calendar u) : Reads (stamp u) u.year u.month u.day u.hour u.minute u.second := by
  obtain ⟨h1, h2, h3, h4, h5, h6, h7, h8, h9, h10⟩ := h
  refine ⟨u.year / 100 / 10, u.year / 100 % 10, u.year % 100 / 10, u.year % 100 % 10, u.month / 10, u.month % 10, u.day / 10,
    u.day % 10, u.hour / 10, u.hour % 10, u.minute / 10, u.minute % 10, u.second / 10, u.second % 10, _, _, _, _, _, _, _, _, _,
    _, _, _, _, _, rfl, ⟨digit_isDigit _ ?_, digit_isDigit _ ?_, digit_isDigit _ ?_, digit_isDigit _ ?_, ?_⟩,
    ⟨digit_isDigit _ ?_, digit_isDigit _ ?_, ?_⟩, ⟨digit_isDigit _ ?_, digit_isDigit _ ?_, ?_⟩,
    ⟨digit_isDigit _ ?_, digit_isDigit _ ?_, ?_⟩, ⟨digit_isDigit _ ?_, digit_isDigit _ ?_, ?_⟩,
    ⟨digit_isDigit _ ?_, digit_isDigit _ ?_, ?_⟩⟩ <;> omega

/-- the example of the documentation -/
example : Calendar ⟨2021, 9, 4, 0, 40, 12, 345678⟩ ∧ stamp ⟨2021, 9, 4, 0, 40, 12, 345678⟩ = "2021-09-04 00:40:12".toList := by
  constructor
  · unfold Calendar; decide
  · decide

/-- the times of two status files are in the order of the texts, as a database compares them: the text of an earlier
second comes first, and two texts are the same only for the same second. -/
theorem C180_order (a b : Utc) (ha : Calendar a) (hb : Calendar b) :
    (stamp a < stamp b ↔ EarlierSecond a b) ∧ (stamp a = stamp b ↔ SameSecond a b) := by
  obtain ⟨a1, a2, a3, a4, a5, a6, a7, a8, a9, a10⟩ := ha
  obtain ⟨b1, b2, b3, b4, b5, b6, b7, b8, b9, b10⟩ := hb
  have ce : ∀ (c : Char) (s t : Str), ([c] ++ s < [c] ++ t ↔ s < t) := by
    intro c s t
    simp
  have last : two a.second < two b.second ↔ a.second < b.second := by
    have := two_lt (n := a.second) (m := b.second) (by omega) (by omega) [] []
    simpa using this
  constructor
  · simp only [stamp, List.append_assoc]
    rw [two_lt (by omega) (by omega), two_lt (by omega) (by omega), ce, two_lt (by omega) (by omega), ce,
      two_lt (by omega) (by omega), ce, two_lt (by omega) (by omega), ce, two_lt (by omega) (by omega), ce, last]
    unfold EarlierSecond
    omega
  · have e1 := two_eq (n := a.year / 100) (m := b.year / 100) (by omega) (by omega)
    have e2 := two_eq (n := a.year % 100) (m := b.year % 100) (by omega) (by omega)
    have e3 := two_eq (n := a.month) (m := b.month) (by omega) (by omega)
    have e4 := two_eq (n := a.day) (m := b.day) (by omega) (by omega)
    have e5 := two_eq (n := a.hour) (m := b.hour) (by omega) (by omega)
    have e6 := two_eq (n := a.minute) (m := b.minute) (by omega) (by omega)
    have e7 := two_eq (n := a.second) (m := b.second) (by omega) (by omega)
    have key : stamp a = stamp b ↔ two (a.year / 100) = two (b.year / 100) ∧ two (a.year % 100) = two (b.year % 100) ∧
        two a.month = two b.month ∧ two a.day = two b.day ∧ two a.hour = two b.hour ∧ two a.minute = two b.minute ∧
        two a.second = two b.second := by
      simp only [stamp, two, List.cons_append, List.nil_append, List.cons.injEq, true_and, and_true, and_assoc]
    rw [key, e1, e2, e3, e4, e5, e6, e7]
    unfold SameSecond
    omega

/-- two runs on either side of midnight -/
example : Calendar ⟨2021, 9, 30, 23, 59, 59, 0⟩ ∧ Calendar ⟨2021, 10, 1, 0, 0, 0, 5⟩ ∧
    EarlierSecond ⟨2021, 9, 30, 23, 59, 59, 0⟩ ⟨2021, 10, 1, 0, 0, 0, 5⟩ := by
  unfold Calendar EarlierSecond; decide

end Beep.StatusMeta
