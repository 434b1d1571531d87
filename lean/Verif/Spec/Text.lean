import Verif.Model.Core

/-!
# Specification vocabulary: the texts of the loggers

`showT` and `showGoal` turn a coordinate and a goal value into text.
-/

namespace Verif.Spec

variable {α : Type}

/-- `n` spaces. -/
def spaces (n : Nat) : String := String.ofList (List.replicate n ' ')

/-- The text of one iteration with the best solution `(x, goal)`: the number of the iteration in a field of 8 characters,
the coordinates in fields of 20 characters, flush left, and the goal value, flush right in a field of 20 characters, separated
by two spaces. -/
def iterationText (showT : α → String) (showGoal : F64 → String) (iteration : Nat) (x : List α) (goal : F64) : String :=
  let cells := x.map (fun xi => "  " ++ (showT xi ++ spaces (20 - (showT xi).length)))
  toString iteration ++ spaces (8 - (toString iteration).length) ++ String.join cells ++
    ("  " ++ (spaces (20 - (showGoal goal).length) ++ showGoal goal)) ++ "\n"

/-- The texts of the end of a run. -/
def finishTexts (showT : α → String) (showGoal : F64 → String) (s : AlgState (List α)) : List String :=
  (match s.best with
    | none => ["Solution not found\n"]
    | some (x, goal) =>
      ["Solution:\n" ++ String.join (x.map (fun xi => "  " ++ showT xi ++ "\n")) ++ "\n" ++ "\n",
        "Goal: " ++ showGoal goal ++ "\n"]) ++
    ["Iterations count: " ++ toString s.iteration ++ "\n"]

/-- The text of a duration. -/
def timeText (ms : Nat) : String := "Time elapsed: " ++ toString ms ++ " ms" ++ "\n"

/-- A page: everything written is added to it. -/
def toPage (text : String) : M (List String) Unit := fun page => .ok ((), page ++ [text])

/-- A clock: reading number `n` is `f n`. -/
def clock (f : Nat → Nat) : M Nat Nat := fun n => .ok (f n, n + 1)

/-- One line. -/
def OneLine (text : String) : Prop := ∃ cs : List Char, text.toList = cs ++ ['\n'] ∧ '\n' ∉ cs

end Verif.Spec
