import Verif.Spec.Rank

/-!
# Specification vocabulary: swarms in mirrored, shifted or scaled coordinates
-/

namespace Verif.Spec.Mirror

open Verif

variable {σ α β : Type} {f : Fmt}

/-- Two points correspond if their coordinates do, each with a relation of its own; the first one has the number `i`. -/
def Points (P : Nat → α → β → Prop) : Nat → List α → List β → Prop
  | _, [], [] => True
  | i, x :: xs, y :: ys => P i x y ∧ Points P (i + 1) xs ys
  | _, _, _ => False

/-- The same number (0 and -0 count as the same) or both NaN -/
def Same (x y : Fl f) : Prop := x.feq y = true ∨ (x.isNan = true ∧ y.isNan = true)

/-- Change the sign of a coordinate or keep it. -/
def flipped (b : Bool) (x : Fl f) : Fl f := if b then x.neg else x

/-- Coordinates with opposite signs in the directions `flip`, equal ones in the others -/
def Mirrored (flip : Nat → Bool) (i : Nat) (x y : Fl f) : Prop := Same (flipped (flip i) x) y

/-- The mirror image of a point -/
def mirror (flip : Nat → Bool) (x : List (Fl f)) : List (Fl f) := x.mapIdx (fun i c => flipped (flip i) c)

/-- The mirror image of an interval -/
def flippedInterval (b : Bool) (iv : Fl f × Fl f) : Fl f × Fl f := if b then (iv.2.neg, iv.1.neg) else iv

/-- Coordinates in other units and from another origin -/
def Affine (a b : Nat → ℝ) (i : Nat) (x y : ℝ) : Prop := y = a i * x + b i

/-- Velocities in other units -/
def Scaled (a : Nat → ℝ) (i : Nat) (v w : ℝ) : Prop := w = a i * v

/-- The same interval in other units and from another origin -/
noncomputable def affineInterval (a b : ℝ) (iv : ℝ × ℝ) : ℝ × ℝ :=
  if 0 ≤ a then (a * iv.1 + b, a * iv.2 + b) else (a * iv.2 + b, a * iv.1 + b)

/-- A hook of a user that stops the program at a coordinate that is not finite. -/
def finiteOnly (x : List (Fl f)) : M σ (List (Fl f)) := do
  M.assert (x.all Fl.isFinite)
  pure x

end Verif.Spec.Mirror
