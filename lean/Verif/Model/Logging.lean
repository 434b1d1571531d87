import Verif.Model.Core
import Verif.Model.StopChecker

/-!
# Text loggers: `optlib/src/tools/logging/mod.rs`

The number formatting of `std::fmt` (`{:.prec$}` of a float) is a parameter `show`; padding is
modelled. A writer is a function from text to an effect in the world.
-/

namespace Verif.Logging

open Verif

variable {σ α : Type}

/-- Left-justified in a field of width `w` (`{:<w}`) -/
def padRight (w : Nat) (s : String) : String := s ++ String.ofList (List.replicate (w - s.length) ' ')

/-- Right-justified in a field of width `w` (numbers with `{:w}`) -/
def padLeft (w : Nat) (s : String) : String := String.ofList (List.replicate (w - s.length) ' ') ++ s

/-- A logger all of whose callbacks do nothing: the default methods of `Logger`
(logging/mod.rs:12-26). -/
def silent {T : Type} : Logger σ T := ⟨fun _ => pure (), fun _ => pure (), fun _ => pure (), fun _ => pure ()⟩

/-- The line written by `VerboseLogger` (logging/mod.rs:47-53) -/
def verboseLine (showT : Nat → α → String) (showGoal : Nat → F64 → String) (precision : Nat)
    (iteration : Nat) (x : List α) (goal : F64) : String :=
  let result := "" ++ padRight 8 (toString iteration)
  let result := x.foldl (fun r xi => r ++ ("  " ++ padRight 20 (showT precision xi))) result
  result ++ ("  " ++ padLeft 20 (showGoal precision goal))

/-- `VerboseLogger` (logging/mod.rs:44-58) -/
def verbose (write : String → M σ Unit) (showT : Nat → α → String)
    (showGoal : Nat → F64 → String) (precision : Nat) : Logger σ (List α) :=
  { (silent : Logger σ (List α)) with
    nextIteration := fun st => match st.best with
      | none => pure ()
      | some (x, goal) =>
        write (verboseLine showT showGoal precision st.iteration x goal ++ "\n") }

/-- `ResultOnlyLogger` (logging/mod.rs:76-102) -/
def resultOnly (write : String → M σ Unit) (showT : Nat → α → String)
    (showGoal : Nat → F64 → String) (precision : Nat) : Logger σ (List α) :=
  { (silent : Logger σ (List α)) with
    finish := fun st => do
      match st.best with
      | none => write ("Solution not found" ++ "\n")
      | some (x, goal) => do
        let result := "" ++ "Solution:\n"
        let result := x.foldl (fun r xi => r ++ ("  " ++ showT precision xi ++ "\n")) result
        let result := result ++ "\n"
        write (result ++ "\n")
        write ("Goal: " ++ showGoal precision goal ++ "\n")
      write ("Iterations count: " ++ toString st.iteration ++ "\n") }

/-- `TimeLogger` (logging/mod.rs:105-131). `now` reads the clock in milliseconds;
`L` is the field `start_time`. Simplification: the elapsed time is the
difference of the clock readings in milliseconds. -/
def time (write : String → M σ Unit) (now : M σ Nat) (L : Lens σ (Option Nat)) :
    Logger σ (List α) :=
  { (silent : Logger σ (List α)) with
    resume := fun _ => do
      let t ← now
      L.zoom (set (some t))
    finish := fun _ => do
      let o ← L.zoom get
      let start ← M.unwrap o
      let t ← now
      write ("Time elapsed: " ++ toString (t - start) ++ " ms" ++ "\n") }

end Verif.Logging
