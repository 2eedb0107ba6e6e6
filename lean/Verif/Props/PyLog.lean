import Verif.Model.PyLog
import Verif.Props.Api

/-!
# C41 from Python

The members of `LogLevel` are `DEBUG`, `INFO`, `WARNING`, `ERROR` and `NONE`, in order of severity, 0 to 4.
-/

namespace AZ.Py

/-- Specification: the number of the last member of `LogLevel` that the program passed to `set_log_level`, if any; objects of other classes
and numbers above 4 do not count. -/
def lastMember : List LogStmt → Option Nat
  | [] => none
  | s :: l => (lastMember l).or <| match s with
    | .set (.enum .logLevel n) => if n ≤ 4 then some n else none
    | _ => none

/-- The argument is a member of `LogLevel`. -/
def IsLogMember (v : Val) : Prop := ∃ n ≤ 4, v = .enum .logLevel n

theorem setLogLevel_nat (cur : LogLevel) (n : Nat) :
    (n ≤ 4 → getLogLevel (setLogLevel cur n).1 = n ∧ (setLogLevel cur n).2 = 0) ∧
    (¬n ≤ 4 → setLogLevel cur n = (cur, 1)) := by
  constructor
  · intro h
    have : n = 0 ∨ n = 1 ∨ n = 2 ∨ n = 3 ∨ n = 4 := by omega
    rcases this with rfl | rfl | rfl | rfl | rfl <;> exact ⟨rfl, rfl⟩
  · intro h
    have e : LogLevel.ofC (n : Int) = Option.none := by
      unfold LogLevel.ofC
      split <;> first | omega | rfl
    simp only [setLogLevel, e, statusInvalidArgument]

/-- **C41, in Python, first part.** `set_log_level` returns (`None`) for exactly the members of `LogLevel`, and then `get_log_level` gives
that member; for other values of the class it raises `RuntimeError`, for other objects `TypeError`, and the level stays as it is. -/
theorem py_set_log_level (cur : LogLevel) (v : Val) :
    (IsLogMember v → (pySetLogLevel cur v).2 = .value .none ∧ pyGetLogLevel (pySetLogLevel cur v).1 = v) ∧
    (¬IsLogMember v → (pySetLogLevel cur v).1 = cur ∧
      ((pySetLogLevel cur v).2 = .typeError ∨
        (∃ n > 4, v = .enum .logLevel n) ∧
          (pySetLogLevel cur v).2 = .runtimeError "Failed to set log level: Invalid argument".toList)) := by
  constructor
  · rintro ⟨n, h, rfl⟩
    obtain ⟨a, b⟩ := (setLogLevel_nat cur n).1 h
    simp only [pySetLogLevel, asEnum, if_true, statusSuccess, b, pyGetLogLevel, a, Int.toNat_natCast]
    exact ⟨trivial, trivial⟩
  · intro hv
    unfold pySetLogLevel
    cases e : asEnum .logLevel v with
    | none => exact ⟨rfl, .inl rfl⟩
    | some n =>
      have ev : v = .enum .logLevel n := by
        cases v with
        | enum c k =>
          simp only [asEnum] at e
          split at e
          · rename_i hc; cases e; rw [hc]
          · cases e
        | _ => cases e
      have hn : ¬n ≤ 4 := fun h => hv ⟨n, h, ev⟩
      simp only [(setLogLevel_nat cur n).2 hn]
      refine ⟨rfl, .inr ⟨⟨n, by omega, ev⟩, ?_⟩⟩
      simp only [statusSuccess]
      exact congrArg Ends.runtimeError (by decide)

/-- **C41, in Python, second part.** Whatever the level was before the module was imported and whatever the program did since,
`get_log_level` gives the last member passed to `set_log_level`, `LogLevel.INFO` if there is none. -/
theorem py_log_level_round_trip (before : LogLevel) (prog : List LogStmt) :
    pyGetLogLevel (runLog (importModule before) prog).1 = .enum .logLevel ((lastMember prog).getD 1) := by
  have key : ∀ (prog : List LogStmt) (cur : LogLevel), pyGetLogLevel (runLog cur prog).1 =
      .enum .logLevel ((lastMember prog).getD (getLogLevel cur).toNat) := by
    intro prog
    induction prog with
    | nil => intro cur; rfl
    | cons s l ih =>
      intro cur
      cases s with
      | get =>
        simp only [runLog, lastMember, Option.or_none]
        exact ih cur
      | set v =>
        simp only [runLog]
        rw [ih]
        congr 1
        simp only [lastMember]
        cases hl : lastMember l with
        | some n => rfl
        | none =>
          simp only [Option.none_or, Option.getD_none]
          by_cases hm : IsLogMember v
          · obtain ⟨a, b⟩ := (py_set_log_level cur v).1 hm
            obtain ⟨n, hn, rfl⟩ := hm
            simp only [pyGetLogLevel, Val.enum.injEq, true_and] at b
            simp only [if_pos hn, Option.getD_some, b]
          · obtain ⟨a, -⟩ := (py_set_log_level cur v).2 hm
            rw [a]
            split
            · rename_i n hn
              rw [if_neg (fun h => hm ⟨n, h, LogStmt.set.inj hn⟩), Option.getD_none]
            · rfl
  exact (key prog _)

/-- The names of the members, in order; a member and its C value have the same meaning (`ZarrLogLevel`, `include/zarr.types.h`). -/
theorem log_member_names : (List.range 5).map logLevelStr =
    ["DEBUG".toList, "INFO".toList, "WARNING".toList, "ERROR".toList, "NONE".toList] := by decide

-- A program that passes a member, a number, and a value that is no member.
example : (runLog (importModule .none)
      [.get, .set (.enum .logLevel 3), .set (.int 0), .set (.enum .logLevel 17), .set (.enum .dataType 2), .get]).2 =
    [.value (.enum .logLevel 1), .value .none, .typeError,
      .runtimeError ("Failed to set log level: ".toList ++ (statusMessage 1).toList), .typeError, .value (.enum .logLevel 3)] := rfl

end AZ.Py
