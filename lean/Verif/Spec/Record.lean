import Verif.Model.Core
import Verif.Spec.Private

/-!
# Specification vocabulary: the record of a history

What a faithful record of a history of an optimizer has to contain, read off the trace.
-/

namespace Verif.Spec

variable {T : Type}

/-- Add an entry to the row written last. -/
def appendLast {β : Type} : List (List β) → β → List (List β)
  | [], _ => []
  | [row], b => [row ++ [b]]
  | row :: rows, b => row :: appendLast rows b

/-- A run begins when its first points are created: a new row. A completed iteration adds the best solution the optimizer
has after it to the row of the run. -/
def rowStep (rows : List (List (Option (Solution T)))) : Ev T → List (List (Option (Solution T)))
  | .created _ => rows ++ [[]]
  | .generation _ best _ _ => appendLast rows best
  | _ => rows

/-- One row per run, with the best solution after each iteration of the run. -/
def rowsOf (tr : List (Ev T)) : List (List (Option (Solution T))) := tr.foldl rowStep []

/-- The states after the completed iterations, in order. -/
def iterationsOf (tr : List (Ev T)) : List (AlgState T) :=
  tr.filterMap (fun | .generation _ best _ it => some ⟨best, it⟩ | _ => none)

/-- The states with which logger `i` was told of the end of a run, in order. -/
def finishesOf (i : Nat) (tr : List (Ev T)) : List (AlgState T) :=
  tr.filterMap (fun | .log j .finish s => if j = i then some s else none | _ => none)

end Verif.Spec
