import Verif.Model.StopChecker
import Verif.Spec.Private
import Verif.Spec.Bounding

/-!
# Specification vocabulary: stop checkers
-/

namespace Verif.Spec

variable {σ T : Type}

/-- The checkers `cs`, consulted one after the other, gave the answers `bs`. -/
inductive Ran : List (AlgState T → M σ Bool) → AlgState T → σ → List Bool → σ → Prop
  | nil {s w} : Ran [] s w [] w
  | cons {c cs s w b w1 bs w'} : c s w = .ok (b, w1) → Ran cs s w1 bs w' → Ran (c :: cs) s w (b :: bs) w'

/-- The rule of `GoalNotChange`: a goal value more than `d` away from the recorded one is recorded, together with the
iteration. -/
def recordStep (d : F64) (r : F64 × Nat) (s : AlgState T) : F64 × Nat :=
  match s.best with
  | none => r
  | some (_, g) => if d.lt (g.sub r.1).abs then (g, s.iteration) else r

/-- What is recorded after the states `l`, seen in this order; at first `f64::MAX` at iteration 0. -/
def recorded (d : F64) (l : List (AlgState T)) : F64 × Nat := l.foldl (recordStep d) (Fl.maxFinite, 0)

/-- The answers in `l` are "more than `m` iterations have passed since the last record". -/
def Stagnation (m : Nat) (d : F64) (l : List (AlgState T × Bool)) : Prop :=
  ∀ i s b, l[i]? = some (s, b) →
    let r := recorded d ((l.map Prod.fst).take (i + 1))
    r.2 ≤ s.iteration ∧ (b = true ↔ s.best.isSome = true ∧ r.2 + m < s.iteration)

end Verif.Spec
