import Verif.Model.Core

/-!
# Specification vocabulary: what can be read off a trace
-/

namespace Verif.Spec

variable {T : Type}

/-- The goal function was called on the point of `a` and returned the value of `a`. -/
def Evaluated (tr : List (Ev T)) (a : Solution T) : Prop := Ev.goal a.1 a.2 ∈ tr

/-- Everything an event shows of the optimizer's solutions was evaluated before. -/
def ShowsEvaluated (before : List (Ev T)) : Ev T → Prop
  | .generation agents best worst _ =>
    (∀ a ∈ agents, Evaluated before a) ∧ (∀ a, best = some a → Evaluated before a) ∧
      (∀ a, worst = some a → Evaluated before a)
  | .log _ _ s => ∀ a, s.best = some a → Evaluated before a
  | .check s _ => ∀ a, s.best = some a → Evaluated before a
  | _ => True

/-- At every moment everything shown had been evaluated before. -/
def OnlyEvaluated (tr : List (Ev T)) : Prop :=
  ∀ before e after, tr = before ++ e :: after → ShowsEvaluated before e

/-- The points the goal was called on, in order. -/
def goalArgs (tr : List (Ev T)) : List T :=
  tr.filterMap (fun | .goal x _ => some x | _ => none)

/-- The logger calls, in order: which logger, which callback, with which state. -/
def logsOf (tr : List (Ev T)) : List (Nat × LogKind × AlgState T) :=
  tr.filterMap (fun | .log i k s => some (i, k, s) | _ => none)

/-- The generation numbers recorded, in order. -/
def generationsOf (tr : List (Ev T)) : List Nat :=
  tr.filterMap (fun | .generation _ _ _ i => some i | _ => none)

/-- The consultations of the stop checker, in order: with which state, and the answer. -/
def checksOf (tr : List (Ev T)) : List (AlgState T × Bool) :=
  tr.filterMap (fun | .check s b => some (s, b) | _ => none)

/-- One callback of `n` loggers, in registration order. -/
def block (n : Nat) (k : LogKind) (s : AlgState T) : List (Nat × LogKind × AlgState T) :=
  (List.range n).map (fun i => (i, k, s))

/-- Replay of a genetic run: the number of generations completed since the last time a population was created. -/
def generationsSince (tr : List (Ev T)) : Nat :=
  tr.foldl (fun n e => match e with
    | .created _ => 0
    | .generation _ _ _ _ => n + 1
    | _ => n) 0

/-- Replay of a genetic run: which points must have been evaluated. The first component collects them, the second
one holds the children of the current generation as they are after the last step seen: mutation, then each pre-birth filter. -/
def owedStep (s : List T × List T) : Ev T → List T × List T
  | .created xs => (s.1 ++ xs, s.2)
  | .paired _ _ => (s.1, [])
  | .mutated _ y => (s.1, s.2 ++ [y])
  | .preBorn _ _ ys => (s.1, ys)
  | .generation _ _ _ _ => (s.1 ++ s.2, s.2)
  | _ => s

/-- The created points and the children that came through all pre-birth filters. -/
def owed (tr : List (Ev T)) : List T := (tr.foldl owedStep ([], [])).1

end Verif.Spec
