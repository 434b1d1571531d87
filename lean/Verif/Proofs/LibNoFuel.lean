import Verif.Proofs.SwarmFuel
import Verif.Props.SwarmShape

/-!
# The library's swarm components contain no loop that could go on for ever

The error `fuel` is how the model says that a run does not end; the components never report it.
-/

namespace Verif.M.NoFuel

open Verif

variable {σ τ α β : Type} {f : Fmt} {R : Rng σ}

theorem fail {e : Err} (h : e ≠ .fuel) : (M.fail e : M σ α).NoFuel := fun s hs => h (by cases hs; rfl)

theorem ite {b : Prop} [Decidable b] {m m' : M σ α} (h : m.NoFuel) (h' : m'.NoFuel) : (if b then m else m').NoFuel := by
  split <;> assumption

theorem assert (b : Bool) : (M.assert b : M σ Unit).NoFuel := PSO.noFuel_assert b

theorem ofState (g : σ → α × σ) : (M.ofState g : M σ α).NoFuel := fun s h => by cases h

theorem replicate {m : M σ α} (hm : m.NoFuel) : ∀ n, (M.replicate n m).NoFuel := by
  intro n
  induction n with
  | zero => exact .pure _
  | succ n ih => exact hm.bind fun _ => ih.bind fun _ => .pure _

theorem zoom {L : Lens σ τ} {m : M τ α} (h : m.NoFuel) : (L.zoom m).NoFuel := by
  intro s hs
  unfold Lens.zoom at hs
  cases hm : m (L.get s) with
  | error e => rw [hm] at hs; simp at hs; subst hs; exact h _ hm
  | ok p => rw [hm] at hs; simp at hs

theorem uniformFl {g : Fmt} (lo hi : Fl g) : (R.uniformFl lo hi).NoFuel := ite (ofState _) (fail (by simp))

theorem uniformFlIncl {g : Fmt} (lo hi : Fl g) : (R.uniformFlIncl lo hi).NoFuel := ite (ofState _) (fail (by simp))

theorem drawGene (iv : Fl f × Fl f) : (Creation.drawGene R iv).NoFuel := (uniformFlIncl _ _).bind fun _ => .pure _

theorem randomInit (ivs : List (Fl f × Fl f)) (n : Nat) : (Creation.randomInit R ivs n).NoFuel :=
  replicate ((assert _).bind fun _ => mapL drawGene _) _

theorem zeroInit [FloatT α] (d n : Nat) : (Creation.zeroInit d n : M σ (List (List α))).NoFuel := replicate (.pure _) _

theorem draw01 [FloatT α] (g : Fmt) : (Velocity.draw01 R g : M σ α).NoFuel := (uniformFlIncl _ _).bind fun _ => .pure _

theorem classic [FloatT α] (phiP phiG : α) (s : PSO.Swarm α) (p : PSO.Particle α) : (Velocity.classic R phiP phiG s p).NoFuel :=
  (unwrap _).bind fun _ => mapL (fun _ => (draw01 _).bind fun _ => (draw01 _).bind fun _ => (index _ _).bind fun _ =>
    (index _ _).bind fun _ => (index _ _).bind fun _ => (index _ _).bind fun _ => .pure _) _

theorem canonical [FloatT α] (c : Velocity.Canonical α) (s : PSO.Swarm α) (p : PSO.Particle α) :
    (Velocity.canonical R c s p).NoFuel :=
  (unwrap _).bind fun _ => mapL (fun _ => (draw01 _).bind fun _ => (draw01 _).bind fun _ => (index _ _).bind fun _ =>
    (index _ _).bind fun _ => (index _ _).bind fun _ => (index _ _).bind fun _ => .pure _) _

theorem inertia [FloatT α] (phiP phiG : α) {get : Nat → M σ α} (hg : ∀ i, (get i).NoFuel) (s : PSO.Swarm α)
    (p : PSO.Particle α) : (Velocity.inertia R phiP phiG get s p).NoFuel :=
  (unwrap _).bind fun _ => (hg _).bind fun _ => mapL (fun _ => (draw01 _).bind fun _ => (draw01 _).bind fun _ =>
    (index _ _).bind fun _ => (index _ _).bind fun _ => (index _ _).bind fun _ => (index _ _).bind fun _ => .pure _) _

theorem negReinf [FloatT α] (c : Velocity.NegReinf α) (s : PSO.Swarm α) (p : PSO.Particle α) :
    (Velocity.negReinf R c s p).NoFuel :=
  (unwrap _).bind fun _ => (unwrap _).bind fun _ => (unwrap _).bind fun _ => (unwrap _).bind fun _ => mapL (fun _ =>
    (draw01 _).bind fun _ => (draw01 _).bind fun _ => (draw01 _).bind fun _ => (draw01 _).bind fun _ =>
    (draw01 _).bind fun _ => (draw01 _).bind fun _ => (index _ _).bind fun _ => (index _ _).bind fun _ =>
    (index _ _).bind fun _ => (index _ _).bind fun _ => (index _ _).bind fun _ => (index _ _).bind fun _ =>
    (index _ _).bind fun _ => (index _ _).bind fun _ => .pure _) _

theorem moveToBoundary [FloatT α] (ivs : List (α × α)) (xs : List α) : (Hooks.moveToBoundary ivs xs : M σ (List α)).NoFuel :=
  (assert _).bind fun _ => .pure _

theorem teleport (t : Hooks.Teleport f) (xs : List (Fl f)) : (Hooks.teleport R t xs).NoFuel :=
  (assert _).bind fun _ => (uniformFl _ _).bind fun _ => ite (mapL (fun _ => uniformFlIncl _ _) _) (.pure _)

theorem maxVelocityDimensions [FloatT α] (vMax v : List α) : (Hooks.maxVelocityDimensions vMax v : M σ (List α)).NoFuel :=
  (assert _).bind fun _ => .pure _

theorem maxVelocityAbs [FloatT α] (vMax : α) (v : List α) : (Hooks.maxVelocityAbs vMax v : M σ (List α)).NoFuel :=
  ite (.pure _) (.pure _)

theorem rosenbrockF64 (p : Profile) (x : List (Fl f)) : (TestFunc.rosenbrockF64 p x : M σ F64).NoFuel := by
  have h : (M.foldL (TestFunc.rosenbrockStep x) (FloatT.lit 0 1) (List.range (x.length - 1)) : M σ (Fl f)).NoFuel :=
    foldL (fun _ _ => (index _ _).bind fun _ => (index _ _).bind fun _ => .pure _) _ _
  refine NoFuel.bind ?_ fun _ => .pure _
  cases x with
  | nil => cases p <;> exact fail (by simp)
  | cons a x => cases p <;> exact h

theorem of_works {m : M σ α} {Q : α → Prop} (h : Spec.Swarm.Works m Q) : m.NoFuel := by
  intro s hs
  obtain ⟨a, s', hr, -⟩ := h s
  rw [hr] at hs
  cases hs

end Verif.M.NoFuel

namespace Verif.Props.Swarm

open Verif Spec Spec.Swarm PSO

variable {σ : Type} {f : Fmt} {R : Rng σ}

/-- No component of the library reports exhausted fuel. -/
theorem lib_noFuel {d n : Nat} {c : Comps σ (Fl f)} (h : LibComps R d n c) (hgoal : ∀ x, (c.goal x).NoFuel) : PSO.NoFuel c := by
  have hinit : ∀ {m : M σ (List (List (Fl f)))}, LibInit R d n m → m.NoFuel := fun h => by
    cases h with
    | random ivs hl hi => exact .randomInit _ _
    | zero => exact .zeroInit _ _
  refine ⟨hgoal, fun s => .of_works (libStop_works h.stop s), hinit h.coordInit, hinit h.velInit, fun s p => ?_, fun g hg x => ?_,
    fun g hg x => ?_, fun l hl s => ?_⟩
  · have hc := h.velCalc
    revert hc
    generalize c.velCalc = vc
    intro hc
    cases hc with
    | classic phiP phiG => exact .classic _ _ _ _
    | canonical c => exact .canonical _ _ _
    | negative c => exact .negReinf _ _ _
    | inertia phiP phiG get hg =>
      refine .inertia _ _ (fun i => ?_) _ _
      cases hg with
      | const w => exact .pure _
      | linear a b t => exact .pure _
  · cases h.postVel g hg with
    | dimensions v hv => exact .maxVelocityDimensions _ _
    | abs v => exact .maxVelocityAbs _ _
  · cases h.postMove g hg with
    | boundary ivs hl => exact .moveToBoundary _ _
    | teleport ivs p t s s' hl ht => exact .teleport _ _
  · obtain ⟨h1, h2, h3, h4⟩ := libLogger_works (h.loggers l hl) s
    exact ⟨.of_works h1, .of_works h2, .of_works h3, .of_works h4⟩

end Verif.Props.Swarm
