import Verif.Spec.Swarm
import Verif.Spec.Intervals
import Verif.Model.Swarm

/-!
# Specification vocabulary: what a swarm program reports
-/

namespace Verif.Spec

variable {σ : Type} {f : Fmt}

/-- `a` is the best of the points `ps` evaluated in a run: all of them are in the box and have a finite goal value, `a` is one
of them and none of them has a smaller value. `value x v` says that the goal at `x` is `v`. -/
structure BestOfRun (ivs : List (Fl f × Fl f)) (value : List (Fl f) → F64 → Prop) (ps : List (Solution (List (Fl f))))
    (a : Solution (List (Fl f))) : Prop where
  mem : a ∈ ps
  least : ∀ b ∈ ps, a.2.le b.2 = true
  inside : ∀ b ∈ ps, InBox ivs b.1
  values : ∀ b ∈ ps, value b.1 b.2
  finite : ∀ b ∈ ps, b.2.isFinite = true

/-- A run of a swarm of `n` particles that ends well: it returns the best of the points it evaluated, after at most `m`
iterations, in each of which, and before the first, it has evaluated `n` points. -/
def SwarmEndsWell (n m : Nat) (ivs : List (Fl f × Fl f)) (value : List (Fl f) → F64 → Prop)
    (r : Except Err ((Option (Solution (List (Fl f))) × PSO.Opt σ (Fl f)) × World σ (List (Fl f)))) : Prop :=
  ∃ a o' w', r = .ok ((some a, o'), w') ∧ BestOfRun ivs value (goalsSince w'.trace) a ∧
    (goalsSince w'.trace).length = n * (o'.swarm.iteration + 1) ∧ o'.swarm.iteration ≤ m

end Verif.Spec
