import Verif.Spec.Finds
import Verif.Model.Creation

/-!
# Specification vocabulary: the random points a search begins with
-/

namespace Verif.Spec

open Verif

variable {f : Fmt}

/-- The point that the draws `t` give, one number for each coordinate; the bounds of an interval are converted to `f64` for the draw and the value
drawn is converted back. -/
def initialPoint (dr : Draws) (ivs : List (Fl f × Fl f)) (t : List Nat) : List (Fl f) :=
  List.zipWith (fun iv k => (dr.closedVal (iv.1.cast : F64) (iv.2.cast : F64) k).cast) ivs t

/-- The chance that a random initial point lies in the region `A` -/
noncomputable def initialShare (dr : Draws) (m : Nat) (ivs : List (Fl f × Fl f)) (A : List (Fl f) → Prop) : ℚ :=
  chance (List.replicate ivs.length m) (fun t => A (initialPoint dr ivs t))

/-- The goal was evaluated in the region, and the solution is not worse than the value there. -/
def AsGoodAs {T : Type} (A : T → Prop) (tr : List (Ev T)) (a : Solution T) : Prop :=
  ∃ x v, A x ∧ Ev.goal x v ∈ tr ∧ (v.isFinite = true → a.2.le v = true)

end Verif.Spec
