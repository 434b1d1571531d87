import Verif.Model.Num
import Verif.Model.Rng

/-!
# Swarm hooks: `particleswarm/postmove/mod.rs`, `particleswarm/postvelocitycalc/mod.rs`
-/

namespace Verif.Hooks

open Verif

variable {σ α : Type}

/-- One coordinate of `MoveToBoundary` (postmove/mod.rs:28-38) -/
def clampCoord [FloatT α] (iv : α × α) (x : α) : α :=
  let x := if !FloatT.isFinite x then iv.1 else x
  let x := if FloatT.lt x iv.1 then iv.1 else x
  if FloatT.lt iv.2 x then iv.2 else x

/-- `MoveToBoundary::post_move` (postmove/mod.rs:23-41) -/
def moveToBoundary [FloatT α] (ivs : List (α × α)) (xs : List α) : M σ (List α) := do
  M.assert (xs.length == ivs.length)
  pure (List.zipWith clampCoord ivs xs)

/-- `RandomTeleport` (postmove/mod.rs:44-49). `random_intervals` holds the same
intervals as prepared samplers and is not repeated here. -/
structure Teleport (f : Fmt) where
  intervals : List (Fl f × Fl f)
  probability : F32

/-- `RandomTeleport::new` (postmove/mod.rs:57-70): `Uniform::new_inclusive` panics here
(line 62) for intervals that are not ordered or not finite. -/
def Teleport.new {f : Fmt} (ivs : List (Fl f × Fl f)) (probability : F32) : M σ (Teleport f) := do
  M.assert ((Fl.zero : F32).le probability)
  M.assert (probability.le Fl.one)
  if ivs.all (fun iv => iv.1.le iv.2 && iv.1.isFinite && iv.2.isFinite) then
    pure ⟨ivs, probability⟩
  else M.fail .range

/-- `RandomTeleport::post_move` (postmove/mod.rs:73-85) -/
def teleport (R : Rng σ) {f : Fmt} (t : Teleport f) (xs : List (Fl f)) : M σ (List (Fl f)) := do
  M.assert (xs.length == t.intervals.length)
  let rnd ← R.uniformFl (Fl.zero : F32) (Fl.one : F32)
  if rnd.lt t.probability then
    M.mapL (fun iv => R.uniformFlIncl iv.1 iv.2) t.intervals
  else pure xs

/-- One component of `MaxVelocityDimensions` (postvelocitycalc/mod.rs:23-29) -/
def limitDim [FloatT α] (v vMax : α) : α :=
  if FloatT.le (FloatT.abs v) vMax then v
  else FloatT.mul (FloatT.abs vMax) (FloatT.signum v)

/-- `MaxVelocityDimensions::correct_velocity` (postvelocitycalc/mod.rs:16-34) -/
def maxVelocityDimensions [FloatT α] (vMax : List α) (v : List α) : M σ (List α) := do
  M.assert (v.length == vMax.length)
  pure (List.zipWith limitDim v vMax)

/-- The Euclidean length of the velocity (postvelocitycalc/mod.rs:49-52) -/
def velocityAbs [FloatT α] (v : List α) : α :=
  FloatT.sqrt (v.foldl (fun acc vi => FloatT.add acc (FloatT.mul vi vi)) FloatT.zero)

/-- `MaxVelocityAbs::correct_velocity` (postvelocitycalc/mod.rs:47-63) -/
def maxVelocityAbs [FloatT α] (vMax : α) (v : List α) : M σ (List α) :=
  let n := velocityAbs v
  if FloatT.lt vMax n then
    pure (v.map (fun vi => FloatT.div (FloatT.mul vi vMax) n))
  else pure v

end Verif.Hooks
