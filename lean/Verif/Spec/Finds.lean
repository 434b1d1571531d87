import Verif.Spec.ChanceFloat
import Verif.Spec.Shape
import Verif.Spec.SwarmOrder
import Verif.Model.Hooks
import Mathlib.Algebra.BigOperators.Group.Finset.Basic

/-!
# Specification vocabulary: randomized components and regions that a swarm searches

The user's world is a tape with the numbers of the draws that are still to come, and the components' own state.
-/

namespace Verif.Spec

open Verif PSO

variable {τ β : Type}

/-- The source of random numbers that reads the numbers of its draws from the tape -/
def Draws.beside (d : Draws) (τ : Type) : Rng (List Nat × τ) where
  nat lo hi s := ((d.source.nat lo hi s.1).1, ((d.source.nat lo hi s.1).2, s.2))
  natIncl lo hi s := ((d.source.natIncl lo hi s.1).1, ((d.source.natIncl lo hi s.1).2, s.2))
  fl lo hi s := ((d.source.fl lo hi s.1).1, ((d.source.fl lo hi s.1).2, s.2))
  flIncl lo hi s := ((d.source.flIncl lo hi s.1).1, ((d.source.flIncl lo hi s.1).2, s.2))
  nat_range lo hi s := d.source.nat_range lo hi s.1
  natIncl_range lo hi s := d.source.natIncl_range lo hi s.1
  fl_range lo hi s := d.source.fl_range lo hi s.1
  flIncl_range lo hi s := d.source.flIncl_range lo hi s.1

/-- A computation that starts with the tape `t` and does not panic: it looks at most at the first `K` numbers of the tape, takes those it looks at
away, and its result and the new state have the property `I`. The numbers of the draws are less than `m`. -/
inductive Ends (m : Nat) (I : β → τ → Prop) : Nat → (List Nat → Except Err (β × (List Nat × τ))) → Prop
  | done {K : Nat} {c : List Nat → Except Err (β × (List Nat × τ))} (b : β) (u : τ) (h : ∀ t, c t = .ok (b, (t, u))) (hI : I b u) : Ends m I K c
  | draw {K : Nat} {c : List Nat → Except Err (β × (List Nat × τ))} (h : ∀ k, k < m → Ends m I K (fun t => c (k :: t))) : Ends m I (K + 1) c

/-- The same from every state of the components -/
def Reads (m K : Nat) (c : M (List Nat × τ) β) (Q : β → Prop) : Prop := ∀ u, Ends m (fun b _ => Q b) K (fun t => c (t, u))

variable {f : Fmt}

/-- The point that the draws `t` give -/
def pointOf (dr : Draws) (ivs : List (Fl f × Fl f)) (t : List Nat) : List (Fl f) := List.zipWith (fun iv k => dr.closedVal iv.1 iv.2 k) ivs t

/-- The chance that a point drawn from the intervals lies in the region `A` -/
noncomputable def regionShare (dr : Draws) (m : Nat) (ivs : List (Fl f × Fl f)) (A : List (Fl f) → Prop) : ℚ :=
  chance (List.replicate ivs.length m) (fun t => A (pointOf dr ivs t))

/-- The chance that a RandomTeleport brings a particle into the region: it teleports and the new point lies there. -/
noncomputable def hitShare (dr : Draws) (m : Nat) (tp : Hooks.Teleport f) (A : List (Fl f) → Prop) : ℚ :=
  share m (fun k => (dr.openVal (Fl.zero : F32) Fl.one k).lt tp.probability = true) * regionShare dr m tp.intervals A

/-- Components of a swarm of `n` particles with `d` dimensions that do not panic and draw at most `K` random numbers in a call; `G x v` says that
the goal can answer `v` at `x`. One of the post-move hooks is a RandomTeleport `tp`, and the hooks after it keep points of the region `A` in
the region. -/
structure Teleporting (dr : Draws) (d n m K : Nat) (tp : Hooks.Teleport f) (A : List (Fl f) → Prop) (G : List (Fl f) → F64 → Prop)
    (c : Comps (List Nat × τ) (Fl f)) : Prop where
  goal : ∀ x, x.length = d → Reads m K (c.goal x) (G x)
  coordInit : Reads m K c.coordInit (Swarm.Vectors d n)
  velInit : Reads m K c.velInit (Swarm.Vectors d n)
  velCalc : ∀ s, Swarm.Shaped d n s → ∀ p ∈ s.particles, Reads m K (c.velCalc s p) (fun v => v.length = d)
  postVel : ∀ h ∈ c.postVel, ∀ x, x.length = d → Reads m K (h x) (fun y => y.length = d)
  postMove : ∃ before after, c.postMove = before ++ Hooks.teleport (dr.beside τ) tp :: after ∧
    (∀ h ∈ before, ∀ x, x.length = d → Reads m K (h x) (fun y => y.length = d)) ∧
    (∀ h ∈ after, ∀ x, x.length = d → Reads m K (h x) (fun y => y.length = d ∧ (A x → A y)))
  dimension : tp.intervals.length = d
  intervals : ∀ iv ∈ tp.intervals, (iv.1.le iv.2 && iv.1.isFinite && iv.2.isFinite) = true
  loggers : ∀ l ∈ c.loggers, ∀ s, Reads m K (l.start s) (fun _ => True) ∧ Reads m K (l.resume s) (fun _ => True) ∧
    Reads m K (l.nextIteration s) (fun _ => True) ∧ Reads m K (l.finish s) (fun _ => True)

/-- A point of the region has been evaluated since the last initialization. -/
def Hit {T : Type} (A : T → Prop) (G : T → F64 → Prop) (tr : List (Ev T)) : Prop := ∃ x v, (x, v) ∈ goalsSince tr ∧ A x ∧ G x v

end Verif.Spec
