import Verif.Proofs.Mirror
import Verif.Props.Rank
import Verif.Model.StopChecker
import Verif.Model.TestFunc

/-!
# C100: the swarm has no preferred direction, unit or origin
-/

namespace Verif.Props

open Verif Spec Spec.Rank Spec.Mirror

variable {σ : Type} {f : Fmt}

/-- C100 (floats): two swarm optimizers whose components do to mirrored points and velocities what the others do to the points and velocities;
the goals have the same values at mirrored points. Then in every history of calls with the same random numbers all positions and velocities are
mirrored exactly, without any error of rounding, all goal values are the same, and the results are mirrored. -/
theorem C100_mirror (flip : Nat → Bool) {o o' : PSO.Opt σ (Fl f)}
    (ho : SwarmOpt (Points (Mirrored flip) 0) (Points (Mirrored flip) 0) Eq o o') {ks ks' : List (PSO.Call σ (Fl f))}
    (hk : List.Forall₂ (SwarmCall (Points (Mirrored flip) 0) (Points (Mirrored flip) 0) Eq) ks ks') {w w' : World σ (List (Fl f))}
    (hw : Worlds (Points (Mirrored flip) 0) Eq w w') :
    Outcome (Worlds (Points (Mirrored flip) 0) Eq) (fun r r' => List.Forall₂ (Returned (Points (Mirrored flip) 0) Eq) r.1 r'.1 ∧
      SwarmOpt (Points (Mirrored flip) 0) (Points (Mirrored flip) 0) Eq r.2 r'.2) (PSO.run o ks w) (PSO.run o' ks' w') :=
  RankPSO.run (Mirror.moves (Mirror.mirrored flip)) sameOrder_eq hk ho w w' hw

/-- C100 (floats): the velocity calculators -/
theorem C100_mirror_velocities (flip : Nat → Bool) (R : Rng σ) (phiP phiG : Fl f) (w : Nat → M σ (Fl f)) (c : Velocity.Canonical (Fl f))
    (d : Velocity.NegReinf (Fl f)) :
    Calcs (Points (Mirrored flip) 0) (Points (Mirrored flip) 0) Eq (Velocity.classic R phiP phiG) (Velocity.classic R phiP phiG) ∧
    Calcs (Points (Mirrored flip) 0) (Points (Mirrored flip) 0) Eq (Velocity.canonical R c) (Velocity.canonical R c) ∧
    Calcs (Points (Mirrored flip) 0) (Points (Mirrored flip) 0) Eq (Velocity.inertia R phiP phiG w) (Velocity.inertia R phiP phiG w) ∧
    Calcs (Points (Mirrored flip) 0) (Points (Mirrored flip) 0) Eq (Velocity.negReinf R d) (Velocity.negReinf R d) :=
  ⟨Mirror.classic (Mirror.mirrored flip) R phiP phiG, Mirror.canonical (Mirror.mirrored flip) R c,
    Mirror.inertia (Mirror.mirrored flip) R phiP phiG w, Mirror.negReinf (Mirror.mirrored flip) sameOrder_eq R d⟩

/-- C100 (floats): MaxVelocityDimensions, unless a limit is negative, MaxVelocityAbs, and MoveToBoundary with mirrored intervals, for coordinates that
are finite. -/
theorem C100_mirror_hooks (flip : Nat → Bool) (ms : List (Fl f)) (hm : ∀ m ∈ ms, m.lt Fl.zero = false) (m : Fl f) (ivs : List (Fl f × Fl f))
    (hiv : ∀ iv ∈ ivs, iv.1.le iv.2 = true) :
    Hooks (σ := σ) (Points (Mirrored flip) 0) [Hooks.maxVelocityDimensions ms] [Hooks.maxVelocityDimensions ms] ∧
    Hooks (σ := σ) (Points (Mirrored flip) 0) [Hooks.maxVelocityAbs m] [Hooks.maxVelocityAbs m] ∧
    Hooks (σ := σ) (Points (Mirrored flip) 0) [finiteOnly, Hooks.moveToBoundary ivs]
      [finiteOnly, Hooks.moveToBoundary (ivs.mapIdx fun j iv => flippedInterval (flip j) iv)] :=
  ⟨Mirror.hooks_one fun _ _ h => Mirror.maxVelocityDimensions ms hm h, Mirror.hooks_one fun _ _ h => Mirror.maxVelocityAbs m h,
    Mirror.moveToBoundary ivs hiv⟩

/-- C100: the stop checkers, GoalNotChange among them, do not look at points. -/
theorem C100_stop_checkers {T U : Type} (H : T → U → Prop) (n : Nat) (t : F64) (p : Profile) :
    Stops (σ := σ) H Eq (Stop.maxIterations n) (Stop.maxIterations n) ∧ Stops (σ := σ) H Eq (Stop.threshold t) (Stop.threshold t) ∧
    Stops H Eq (Stop.goalNotChange p) (Stop.goalNotChange p) := by
  refine ⟨Rank.maxIterations n, Rank.threshold (by rintro _ _ rfl; rfl), ?_⟩
  rintro ⟨b, i⟩ ⟨b', i'⟩ ⟨hb, hi⟩
  obtain rfl : i = i' := hi
  cases hb with
  | none => rfl
  | some h =>
    rename_i a b
    obtain ⟨x, v⟩ := a
    obtain ⟨y, v'⟩ := b
    obtain rfl : v = v' := h.2
    rfl

theorem points_mirror (flip : Nat → Bool) : ∀ (i : Nat) (x : List (Fl f)),
    Points (Mirrored flip) i x (x.mapIdx fun j c => flipped (flip (i + j)) c)
  | _, [] => trivial
  | i, c :: cs => by
    rw [List.mapIdx_cons]
    refine ⟨Fl.mirrored_iff.2 (.of_eq rfl), ?_⟩
    have := points_mirror flip (i + 1) cs
    have e : (fun j (c : Fl f) => flipped (flip (i + 1 + j)) c) = fun j c => flipped (flip (i + (j + 1))) c := by
      funext j c; rw [show i + 1 + j = i + (j + 1) by omega]
    rw [e] at this
    exact this

theorem mirrored_mirror (flip : Nat → Bool) (x : List (Fl f)) : Points (Mirrored flip) 0 x (mirror flip x) := by
  have := points_mirror flip 0 x
  simp only [Nat.zero_add] at this
  exact this

theorem same_mirror_from (flip : Nat → Bool) : ∀ (i : Nat) {x y : List (Fl f)}, Points (Mirrored flip) i x y →
    List.Forall₂ Same x (y.mapIdx fun j c => flipped (flip (i + j)) c)
  | _, [], [], _ => .nil
  | i, c :: _, d :: _, h => by
    rw [List.mapIdx_cons]
    refine .cons ?_ ?_
    · have h1 := Fl.mirrored_iff.1 h.1
      have : Fl.Opp false c (flipped (flip i) d) := by
        rcases h1 with h | h | h
        · exact .nan h.1 (by rw [Fl.isNan_flipped]; exact h.2)
        · subst h
          refine .of_eq ?_
          unfold flipped
          cases flip i
          · rfl
          · exact Fl.neg_neg c
        · exact .inr (.inr ⟨h.1, by rw [Fl.idx_flipped]; exact h.2⟩)
      exact Fl.mirrored_iff.2 this
    · have := same_mirror_from flip (i + 1) h.2
      have e : (fun j (c : Fl f) => flipped (flip (i + 1 + j)) c) = fun j c => flipped (flip (i + (j + 1))) c := by
        funext j c; rw [show i + 1 + j = i + (j + 1) by omega]
      rw [e] at this
      exact this
  | _, [], _ :: _, h => h.elim
  | _, _ :: _, [], h => h.elim

theorem same_mirror (flip : Nat → Bool) {x y : List (Fl f)} (h : Points (Mirrored flip) 0 x y) : List.Forall₂ Same x (mirror flip y) := by
  have := same_mirror_from flip 0 h
  simp only [Nat.zero_add] at this
  exact this

theorem goalArgs_mirrored {H : List (Fl f) → List (Fl f) → Prop} {Q : F64 → F64 → Prop} {tr tr' : List (Ev (List (Fl f)))}
    (h : List.Forall₂ (Event H Q H) tr tr') : List.Forall₂ H (goalArgs tr) (goalArgs tr') := by
  unfold goalArgs
  induction h with
  | nil => exact .nil
  | cons h _ ih =>
    cases h with
    | goal hx _ => exact .cons hx ih
    | _ => exact ih

theorem alike_mirrored (flip : Nat → Bool) (m : M σ (List (List (Fl f)))) :
    Alike Eq (List.Forall₂ (Points (Mirrored flip) 0)) m (do let xs ← m; pure (xs.map (mirror flip))) := by
  have h : Alike Eq (List.Forall₂ (Points (Mirrored flip) 0)) (m >>= fun xs => pure xs) (m >>= fun xs => pure (xs.map (mirror flip))) := by
    refine Rank.bind (Rank.refl m) ?_
    rintro xs _ rfl
    refine Rank.pure ?_
    induction xs with
    | nil => exact .nil
    | cons x xs ih => exact .cons (mirrored_mirror flip x) ih
  rwa [bind_pure] at h

/-- C100 (floats): any goal that does not tell 0 from -0 and its mirror image, any initializers and their mirror images, here with the velocity
calculator with inertia, MaxVelocityAbs and MaxIterations: the search on the mirror image calls the goal at the mirror images of the points, in
the same order, and finds the mirror image of what the search finds, with the same value. -/
theorem C100_mirror_find_min (flip : Nat → Bool) (g : List (Fl f) → F64) (hg : ∀ x y, List.Forall₂ Same x y → g x = g y)
    (coordInit velInit : M σ (List (List (Fl f)))) (R : Rng σ) (phiP phiG vMax : Fl f) (inertia : Nat → M σ (Fl f)) (m fuel : Nat) (s : σ) :
    Outcome (fun w w' => w.user = w'.user ∧ List.Forall₂ (Points (Mirrored flip) 0) (goalArgs w.trace) (goalArgs w'.trace))
      (fun r r' => List.Forall₂ (Returned (Points (Mirrored flip) 0) Eq) r.1 r'.1)
      (PSO.run (PSO.new (fun x => pure (g x)) (Stop.maxIterations m) coordInit velInit (Velocity.inertia R phiP phiG inertia))
        [.setPostVelocityCalc [Hooks.maxVelocityAbs vMax], .findMin fuel] ⟨s, []⟩)
      (PSO.run (PSO.new (fun x => pure (g (mirror flip x))) (Stop.maxIterations m) (do let xs ← coordInit; pure (xs.map (mirror flip)))
          (do let vs ← velInit; pure (vs.map (mirror flip))) (Velocity.inertia R phiP phiG inertia))
        [.setPostVelocityCalc [Hooks.maxVelocityAbs vMax], .findMin fuel] ⟨s, []⟩) := by
  have hc : Spec.Rank.Swarm (Points (Mirrored flip) 0) (Points (Mirrored flip) 0) Eq
      (PSO.new (fun x => pure (g x)) (Stop.maxIterations m) coordInit velInit (Velocity.inertia R phiP phiG inertia)).comps
      (PSO.new (fun x => pure (g (mirror flip x))) (Stop.maxIterations m) (do let xs ← coordInit; pure (xs.map (mirror flip)))
          (do let vs ← velInit; pure (vs.map (mirror flip))) (Velocity.inertia R phiP phiG inertia)).comps :=
    ⟨fun x y h => Rank.pure (hg _ _ (same_mirror flip h)), Rank.maxIterations m, alike_mirrored flip _, alike_mirrored flip _,
      Mirror.inertia (Mirror.mirrored flip) R phiP phiG inertia, Mirror.hooks_nil, Mirror.hooks_nil, .nil⟩
  have key := C100_mirror flip ⟨hc, ⟨.nil, .none, .none, rfl⟩⟩
    (.cons (.setPostVelocityCalc (Mirror.hooks_one fun _ _ h => Mirror.maxVelocityAbs vMax h)) (.cons (.findMin fuel) .nil))
    (⟨rfl, .nil⟩ : Worlds _ _ (⟨s, []⟩ : World σ (List (Fl f))) ⟨s, []⟩)
  revert key
  generalize PSO.run (α := Fl f) _ _ _ = x
  generalize PSO.run (α := Fl f) _ _ _ = y
  intro key
  cases x with
  | error e =>
    cases y with
    | error e' => exact key
    | ok r => exact key
  | ok r =>
    cases y with
    | error e' => exact key
    | ok r' => exact ⟨key.1.1, key.2.1, goalArgs_mirrored key.2.2⟩

/-- C100, MoveToBoundary has a preferred direction for coordinates that are not finite: an infinite coordinate, whatever its sign, is
moved to the lower end of the interval [-1, 1]. -/
theorem C100_boundary_witness : (Hooks.clampCoord ((Fl.one : F64).neg, Fl.one) (Fl.inf false)) = (Fl.one : F64).neg ∧
    (Hooks.clampCoord ((Fl.one : F64).neg, Fl.one) (Fl.inf true)) = (Fl.one : F64).neg ∧
    flippedInterval true ((Fl.one : F64).neg, Fl.one) = ((Fl.one : F64).neg, Fl.one) := by decide +kernel

/-- C100 (exact arithmetic): in other units and with another origin for each coordinate, all positions are the same positions in these units,
the velocities are the same velocities, and the goal values are the same. -/
theorem C100_affine (a b : Nat → ℝ) {o o' : PSO.Opt σ ℝ} (ho : SwarmOpt (Points (Affine a b) 0) (Points (Scaled a) 0) Eq o o')
    {ks ks' : List (PSO.Call σ ℝ)} (hk : List.Forall₂ (SwarmCall (Points (Affine a b) 0) (Points (Scaled a) 0) Eq) ks ks')
    {w w' : World σ (List ℝ)} (hw : WorldsV (Points (Affine a b) 0) Eq (Points (Scaled a) 0) w w') :
    Outcome (WorldsV (Points (Affine a b) 0) Eq (Points (Scaled a) 0))
      (fun r r' => List.Forall₂ (Returned (Points (Affine a b) 0) Eq) r.1 r'.1 ∧
        SwarmOpt (Points (Affine a b) 0) (Points (Scaled a) 0) Eq r.2 r'.2) (PSO.run o ks w) (PSO.run o' ks' w') :=
  RankPSO.run (Mirror.moves (Mirror.affine a b)) sameOrder_eq hk ho w w' hw

/-- C100 (exact arithmetic): the velocity calculators, MaxVelocityDimensions with limits in the other units and MoveToBoundary with the intervals
in the other units. -/
theorem C100_affine_components (a b : Nat → ℝ) (R : Rng σ) (phiP phiG : ℝ) (w : Nat → M σ ℝ) (c : Velocity.Canonical ℝ)
    (d : Velocity.NegReinf ℝ) (ms : List ℝ) (hm : ∀ m ∈ ms, 0 ≤ m) (ivs : List (ℝ × ℝ)) (hiv : ∀ iv ∈ ivs, iv.1 ≤ iv.2) :
    Calcs (Points (Affine a b) 0) (Points (Scaled a) 0) Eq (Velocity.classic R phiP phiG) (Velocity.classic R phiP phiG) ∧
    Calcs (Points (Affine a b) 0) (Points (Scaled a) 0) Eq (Velocity.canonical R c) (Velocity.canonical R c) ∧
    Calcs (Points (Affine a b) 0) (Points (Scaled a) 0) Eq (Velocity.inertia R phiP phiG w) (Velocity.inertia R phiP phiG w) ∧
    Calcs (Points (Affine a b) 0) (Points (Scaled a) 0) Eq (Velocity.negReinf R d) (Velocity.negReinf R d) ∧
    Hooks (σ := σ) (Points (Scaled a) 0) [Hooks.maxVelocityDimensions ms] [Hooks.maxVelocityDimensions (ms.mapIdx fun j m => |a j| * m)] ∧
    Hooks (σ := σ) (Points (Affine a b) 0) [Hooks.moveToBoundary ivs]
      [Hooks.moveToBoundary (ivs.mapIdx fun j iv => affineInterval (a j) (b j) iv)] :=
  ⟨Mirror.classic (Mirror.affine a b) R phiP phiG, Mirror.canonical (Mirror.affine a b) R c, Mirror.inertia (Mirror.affine a b) R phiP phiG w,
    Mirror.negReinf (Mirror.affine a b) sameOrder_eq R d, Mirror.maxVelocityDimensionsReal ms hm, Mirror.moveToBoundaryReal ivs hiv⟩

/-! ### Examples -/

theorem paraboloid_same : ∀ (n : Nat) {x y : List F64}, List.Forall₂ Same x y → ∀ acc,
    TestFunc.paraboloidLoop n x acc = TestFunc.paraboloidLoop n y acc
  | _, [], [], _, _ => rfl
  | n, x :: _, y :: _, .cons h1 h2, acc => by
    have e : (y.sub (FloatT.add (FloatT.ofNat n) (FloatT.lit 1 1))).mul (y.sub (FloatT.add (FloatT.ofNat n) (FloatT.lit 1 1))) =
        (x.sub (FloatT.add (FloatT.ofNat n) (FloatT.lit 1 1))).mul (x.sub (FloatT.add (FloatT.ofNat n) (FloatT.lit 1 1))) :=
      ((Fl.mirrored_iff (b := false).1 h1).sub (.refl _)).sq
    unfold TestFunc.paraboloidLoop
    have e' : TestFunc.sq (FloatT.sub y (FloatT.add (FloatT.ofNat n) (FloatT.lit 1 1))) =
      TestFunc.sq (FloatT.sub x (FloatT.add (FloatT.ofNat n) (FloatT.lit 1 1))) := e
    rw [e']
    exact paraboloid_same (n + 1) h2 _

/-- The paraboloid does not tell 0 from -0. -/
example (x y : List F64) (h : List.Forall₂ Same x y) : TestFunc.paraboloid x = TestFunc.paraboloid y := paraboloid_same 0 h _

/-- The search of `C100_mirror_find_min` on the paraboloid with two particles at 3 that move down, or their mirror images. -/
def mirrorDemo (flip : Nat → Bool) : PSO.Opt (List Nat) F64 :=
  PSO.new (fun x => pure (TestFunc.paraboloid (mirror flip x))) (Stop.maxIterations 2)
    (do let xs ← (pure [[Fl.ofNat 3], [Fl.ofNat 3]] : M (List Nat) _); pure (xs.map (mirror flip)))
    (do let vs ← (pure [[Fl.one.neg], [Fl.one.neg]] : M (List Nat) _); pure (vs.map (mirror flip)))
    (Velocity.inertia Rng.script Fl.one Fl.one (Velocity.constInertia Fl.one))

/-- After two iterations the one has found 1, the other one -1. -/
example : M.okAnd (PSO.findMin 3 (mirrorDemo fun _ => false) ⟨Demo.script, []⟩) (fun r _ => r.1.map Prod.fst == some [Fl.one]) = true ∧
    M.okAnd (PSO.findMin 3 (mirrorDemo fun _ => true) ⟨Demo.script, []⟩) (fun r _ => r.1.map Prod.fst == some [Fl.one.neg]) = true :=
  ⟨by decide +kernel, by decide +kernel⟩

end Verif.Props
