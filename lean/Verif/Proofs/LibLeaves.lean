import Verif.Proofs.Private
import Verif.Model.Creation
import Verif.Model.Hooks
import Verif.Model.Velocity
import Verif.Model.Pairing
import Verif.Model.Mutation
import Verif.Model.Cross
import Verif.Model.Selection
import Verif.Model.Logging
import Verif.Model.TestFunc

/-!
# The library's components touch nothing but the random numbers and the writers
-/

set_option linter.unusedSectionVars false

namespace Verif

open Spec

/-- Drawing random numbers does not touch the part `L` of the world. -/
structure Rng.Leaves {σ τ : Type} (L : Lens σ τ) (R : Rng σ) : Prop where
  nat : ∀ lo hi s, L.get (R.nat lo hi s).2 = L.get s
  natIncl : ∀ lo hi s, L.get (R.natIncl lo hi s).2 = L.get s
  fl : ∀ {g : Fmt} (lo hi : Fl g) s, L.get (R.fl lo hi s).2 = L.get s
  flIncl : ∀ {g : Fmt} (lo hi : Fl g) s, L.get (R.flIncl lo hi s).2 = L.get s

namespace Spec.Leaves

variable {σ τ α β γ : Type} {L : Lens σ τ} {R : Rng σ} {f : Fmt}

theorem pure (a : α) : Leaves L (pure a : M σ α) := fun s b s' h => by rw [(M.pure_eq_ok.1 h).2]

theorem fail (e : Err) : Leaves L (M.fail e : M σ α) := fun s b s' h => by cases h

theorem bind {m : M σ α} {k : α → M σ β} (hm : Leaves L m) (hk : ∀ a, Leaves L (k a)) : Leaves L (m >>= k) := by
  intro s b s' h
  obtain ⟨a, s1, h1, h2⟩ := M.bind_eq_ok.1 h
  exact (hk a s1 b s' h2).trans (hm s a s1 h1)

theorem ite {b : Prop} [Decidable b] {m m' : M σ α} (h : Leaves L m) (h' : Leaves L m') : Leaves L (if b then m else m') := by
  split <;> assumption

theorem of_state {m : M σ α} (h : ∀ s a s', m s = .ok (a, s') → s' = s) : Leaves L m := fun s a s' hr => by rw [h s a s' hr]

theorem index (l : List α) (i : Nat) : Leaves L (M.index l i : M σ α) :=
  of_state fun _ _ _ h => (M.index_eq_ok.1 h).2.symm

theorem assert (b : Bool) : Leaves L (M.assert b : M σ Unit) :=
  of_state fun _ _ _ h => (M.assert_eq_ok.1 h).2.symm

theorem unwrap (o : Option α) : Leaves L (M.unwrap o : M σ α) := by
  cases o with
  | none => exact fail _
  | some a => exact pure a

theorem ofExcept (e : Except Err α) : Leaves L (M.ofExcept e : M σ α) :=
  of_state fun _ _ _ h => (M.ofExcept_eq_ok.1 h).2.symm

theorem mapL {k : α → M σ β} (hk : ∀ a, Leaves L (k a)) : ∀ as, Leaves L (M.mapL k as) := by
  intro as
  induction as with
  | nil => exact pure _
  | cons a as ih => exact (hk a).bind fun _ => ih.bind fun _ => pure _

theorem foldL {k : β → α → M σ β} (hk : ∀ b a, Leaves L (k b a)) : ∀ as b, Leaves L (M.foldL k b as) := by
  intro as
  induction as with
  | nil => intro b; exact pure _
  | cons a as ih => intro b; exact (hk b a).bind fun _ => ih _

theorem replicate {m : M σ α} (hm : Leaves L m) : ∀ n, Leaves L (M.replicate n m) := by
  intro n
  induction n with
  | zero => exact pure _
  | succ n ih => exact hm.bind fun _ => ih.bind fun _ => pure _

/-! ## Random numbers -/

theorem uniformNat (hR : R.Leaves L) (lo hi : Nat) : Leaves L (R.uniformNat lo hi) := by
  unfold Rng.uniformNat
  refine ite ?_ (fail _)
  intro s a s' h
  rw [M.ofState_eq_ok] at h
  have := hR.nat lo hi s
  rw [h] at this; exact this

theorem uniformNatIncl (hR : R.Leaves L) (lo hi : Nat) : Leaves L (R.uniformNatIncl lo hi) := by
  unfold Rng.uniformNatIncl
  refine ite ?_ (fail _)
  intro s a s' h
  rw [M.ofState_eq_ok] at h
  have := hR.natIncl lo hi s
  rw [h] at this; exact this

theorem uniformFl (hR : R.Leaves L) {g : Fmt} (lo hi : Fl g) : Leaves L (R.uniformFl lo hi) := by
  unfold Rng.uniformFl
  refine ite ?_ (fail _)
  intro s a s' h
  rw [M.ofState_eq_ok] at h
  have := hR.fl lo hi s
  rw [h] at this; exact this

theorem uniformFlIncl (hR : R.Leaves L) {g : Fmt} (lo hi : Fl g) : Leaves L (R.uniformFlIncl lo hi) := by
  unfold Rng.uniformFlIncl
  refine ite ?_ (fail _)
  intro s a s' h
  rw [M.ofState_eq_ok] at h
  have := hR.flIncl lo hi s
  rw [h] at this; exact this

/-! ## Initial points -/

theorem drawGene (hR : R.Leaves L) (iv : Fl f × Fl f) : Leaves L (Creation.drawGene R iv) :=
  (uniformFlIncl hR _ _).bind fun _ => pure _

theorem randomCreator (hR : R.Leaves L) (c : Creation.RandomCreator f) : Leaves L (c.create R) :=
  replicate (mapL (drawGene hR) _) _

theorem randomInit (hR : R.Leaves L) (ivs : List (Fl f × Fl f)) (n : Nat) : Leaves L (Creation.randomInit R ivs n) :=
  replicate ((assert _).bind fun _ => mapL (drawGene hR) _) _

theorem zeroInit [FloatT α] (d n : Nat) : Leaves L (Creation.zeroInit d n : M σ (List (List α))) :=
  replicate (pure _) _

/-! ## Swarm -/

theorem draw01 [FloatT α] (hR : R.Leaves L) (g : Fmt) : Leaves L (Velocity.draw01 R g : M σ α) :=
  (uniformFlIncl hR _ _).bind fun _ => pure _

theorem classic [FloatT α] (hR : R.Leaves L) (phiP phiG : α) (s : PSO.Swarm α) (p : PSO.Particle α) :
    Leaves L (Velocity.classic R phiP phiG s p) :=
  (unwrap _).bind fun _ => mapL (fun _ => (draw01 hR _).bind fun _ => (draw01 hR _).bind fun _ => (index _ _).bind fun _ =>
    (index _ _).bind fun _ => (index _ _).bind fun _ => (index _ _).bind fun _ => pure _) _

theorem canonical [FloatT α] (hR : R.Leaves L) (c : Velocity.Canonical α) (s : PSO.Swarm α) (p : PSO.Particle α) :
    Leaves L (Velocity.canonical R c s p) :=
  (unwrap _).bind fun _ => mapL (fun _ => (draw01 hR _).bind fun _ => (draw01 hR _).bind fun _ => (index _ _).bind fun _ =>
    (index _ _).bind fun _ => (index _ _).bind fun _ => (index _ _).bind fun _ => pure _) _

theorem inertia [FloatT α] (hR : R.Leaves L) (phiP phiG : α) {get : Nat → M σ α} (hg : ∀ i, Leaves L (get i))
    (s : PSO.Swarm α) (p : PSO.Particle α) : Leaves L (Velocity.inertia R phiP phiG get s p) :=
  (unwrap _).bind fun _ => (hg _).bind fun _ => mapL (fun _ => (draw01 hR _).bind fun _ => (draw01 hR _).bind fun _ =>
    (index _ _).bind fun _ => (index _ _).bind fun _ => (index _ _).bind fun _ => (index _ _).bind fun _ => pure _) _

theorem negReinf [FloatT α] (hR : R.Leaves L) (c : Velocity.NegReinf α) (s : PSO.Swarm α) (p : PSO.Particle α) :
    Leaves L (Velocity.negReinf R c s p) :=
  (unwrap _).bind fun _ => (unwrap _).bind fun _ => (unwrap _).bind fun _ => (unwrap _).bind fun _ => mapL (fun _ =>
    (draw01 hR _).bind fun _ => (draw01 hR _).bind fun _ => (draw01 hR _).bind fun _ => (draw01 hR _).bind fun _ =>
    (draw01 hR _).bind fun _ => (draw01 hR _).bind fun _ => (index _ _).bind fun _ => (index _ _).bind fun _ =>
    (index _ _).bind fun _ => (index _ _).bind fun _ => (index _ _).bind fun _ => (index _ _).bind fun _ =>
    (index _ _).bind fun _ => (index _ _).bind fun _ => pure _) _

theorem moveToBoundary [FloatT α] (ivs : List (α × α)) (xs : List α) : Leaves L (Hooks.moveToBoundary ivs xs : M σ (List α)) :=
  (assert _).bind fun _ => pure _

theorem teleport (hR : R.Leaves L) (t : Hooks.Teleport f) (xs : List (Fl f)) : Leaves L (Hooks.teleport R t xs) :=
  (assert _).bind fun _ => (uniformFl hR _ _).bind fun _ => ite (mapL (fun _ => uniformFlIncl hR _ _) _) (pure _)

theorem maxVelocityDimensions [FloatT α] (vMax v : List α) : Leaves L (Hooks.maxVelocityDimensions vMax v : M σ (List α)) :=
  (assert _).bind fun _ => pure _

theorem maxVelocityAbs [FloatT α] (vMax : α) (v : List α) : Leaves L (Hooks.maxVelocityAbs vMax v : M σ (List α)) :=
  ite (pure _) (pure _)

/-! ## Genetic operators -/

theorem uniformCheck (n : Nat) : Leaves L (Pairing.uniformCheck n : M σ Unit) := ite (pure _) (fail _)

theorem randomPairing (hR : R.Leaves L) (p : Population α) : Leaves L (Pairing.randomPairing R p) :=
  (uniformCheck _).bind fun _ => replicate ((uniformNat hR _ _).bind fun _ => (uniformNat hR _ _).bind fun _ => pure _) _

theorem rounds (hR : R.Leaves L) (p : Population α) : ∀ n b, Leaves L (Pairing.rounds R p n b) := by
  intro n
  induction n with
  | zero => intro b; exact pure _
  | succ n ih => intro b; exact (uniformNat hR _ _).bind fun _ => (index _ _).bind fun _ => (index _ _).bind fun _ => ih _

theorem tournament (hR : R.Leaves L) (t : Pairing.Tournament) (p : Population α) : Leaves L (Pairing.tournament R t p) :=
  (uniformCheck _).bind fun _ => replicate (replicate ((uniformNat hR _ _).bind fun _ => rounds hR p _ _) _) _

theorem crossBitwise (p : Profile) (hR : R.Leaves L) (xs : List (Fl f)) : Leaves L (Cross.crossBitwise p R xs) :=
  (assert _).bind fun _ => (uniformNat hR _ _).bind fun _ => (index _ _).bind fun _ => (index _ _).bind fun _ =>
    (ofExcept _).bind fun _ => pure _

theorem crossMean [FloatT α] (xs : List α) : Leaves L (Cross.crossMean xs : M σ (List α)) := (assert _).bind fun _ => pure _

theorem crossGeomMean [FloatT α] [FloatFn α] (xs : List α) : Leaves L (Cross.crossGeomMean xs : M σ (List α)) :=
  (assert _).bind fun _ => pure _

theorem floatCrossExp (p : Profile) (hR : R.Leaves L) (exp2 : Fl f → Fl f) (xs : List (Fl f)) :
    Leaves L (Cross.floatCrossExp p R exp2 xs) := by
  refine (assert _).bind fun _ => (index _ _).bind fun _ => (index _ _).bind fun _ => (uniformNat hR _ _).bind fun _ =>
    (uniformNat hR _ _).bind fun _ => (ofExcept _).bind fun _ => (ofExcept _).bind fun _ => (uniformNatIncl hR _ _).bind fun _ => ?_
  split
  · exact (pure _).bind fun _ => pure _
  · exact (pure _).bind fun _ => pure _
  · exact (fail _).bind fun _ => pure _

theorem vecCrossLoop {single : List α → M σ (List α)} (hs : ∀ xs, Leaves L (single xs)) (p1 p2 : List α) :
    ∀ ns c, Leaves L (Cross.vecCrossLoop single p1 p2 ns c) := by
  intro ns
  induction ns with
  | nil => intro c; exact pure _
  | cons n ns ih => intro c; exact (index _ _).bind fun _ => (index _ _).bind fun _ => (hs _).bind fun _ => ih _

theorem vecCrossAllGenes {single : List α → M σ (List α)} (hs : ∀ xs, Leaves L (single xs)) (xs : List (List α)) :
    Leaves L (Cross.vecCrossAllGenes single xs) :=
  (assert _).bind fun _ => (index _ _).bind fun _ => (index _ _).bind fun _ => (vecCrossLoop hs _ _ _ _).bind fun _ => pure _

theorem flipLoop (hR : R.Leaves L) {w : Nat} : ∀ n (b : BitVec w), Leaves L (Mutation.flipLoop R n b) := by
  intro n
  induction n with
  | zero => intro b; exact pure _
  | succ n ih => intro b; exact (uniformNat hR _ _).bind fun _ => ih _

theorem bitwise (hR : R.Leaves L) (n : Nat) (x : Fl f) : Leaves L (Mutation.bitwise R n x) :=
  (flipLoop hR _ _).bind fun _ => pure _

theorem vecMutation (hR : R.Leaves L) (prob : F64) {single : α → M σ α} (hs : ∀ x, Leaves L (single x)) (xs : List α) :
    Leaves L (Mutation.vec R prob single xs) :=
  mapL (fun _ => (uniformFl hR _ _).bind fun _ => ite (hs _) (pure _)) _

theorem killFitnessNaN (p : Population α) : Leaves L (Selection.killFitnessNaN p : M σ (Population α)) := pure _

theorem findBest (p : Population α) (kl : List Nat) : ∀ ms bi bf, Leaves L (Selection.findBest p kl ms bi bf : M σ (Nat × F64)) := by
  intro ms
  induction ms with
  | nil => intro bi bf; exact pure _
  | cons m ms ih => intro bi bf; exact (index _ _).bind fun _ => (index _ _).bind fun _ => ite (ih _ _) (ih _ _)

theorem killWorst (p : Population α) (n : Nat) : Leaves L (Selection.killWorst p n : M σ (Population α)) := by
  refine (index _ _).bind fun _ => (foldL ?_ _ _).bind fun _ => foldL (fun _ _ => (index _ _).bind fun _ => pure _) _ _
  intro s n
  exact (index _ _).bind fun _ => ite (pure _) (ite (ite (pure _) (pure _)) (ite ((assert _).bind fun _ => (index _ _).bind fun _ =>
    (index _ _).bind fun _ => (findBest _ _ _ _ _).bind fun _ => pure _) (pure _)))

theorem limitPopulation (n : Nat) (p : Population α) : Leaves L (Selection.limitPopulation n p : M σ (Population α)) :=
  ite (killWorst _ _) (pure _)

theorem checkChromoInterval [FloatT α] (ivs : List (α × α)) (p : Population (List α)) :
    Leaves L (Selection.checkChromoInterval ivs p : M σ (Population (List α))) :=
  (mapL (fun _ => (assert _).bind fun _ => pure _) _).bind fun _ => pure _

theorem retain {keep : α → M σ Bool} (hk : ∀ x, Leaves L (keep x)) : ∀ xs, Leaves L (Selection.retain keep xs) := by
  intro xs
  induction xs with
  | nil => exact pure _
  | cons x xs ih => exact (hk _).bind fun _ => ih.bind fun _ => pure _

theorem preBirthInterval [FloatT α] (ivs : List (α × α)) (p : Population (List α)) (cs : List (List α)) :
    Leaves L (Selection.preBirthInterval ivs p cs : M σ (List (List α))) :=
  retain (fun _ => (assert _).bind fun _ => pure _) _

/-! ## Text loggers -/

theorem silent (k : LogKind) (s : AlgState α) : Leaves L ((Logging.silent : Logger σ α).on k s) := by
  cases k <;> exact pure _

theorem verbose {write : String → M σ Unit} (hw : ∀ s, Leaves L (write s)) (showT : Nat → α → String)
    (showGoal : Nat → F64 → String) (precision : Nat) (k : LogKind) (s : AlgState (List α)) :
    Leaves L ((Logging.verbose write showT showGoal precision).on k s) := by
  cases k with
  | start => exact pure _
  | resume => exact pure _
  | finish => exact pure _
  | next =>
    simp only [Logger.on, Logging.verbose]
    split
    · exact pure _
    · exact hw _

theorem resultOnly {write : String → M σ Unit} (hw : ∀ s, Leaves L (write s)) (showT : Nat → α → String)
    (showGoal : Nat → F64 → String) (precision : Nat) (k : LogKind) (s : AlgState (List α)) :
    Leaves L ((Logging.resultOnly write showT showGoal precision).on k s) := by
  cases k with
  | start => exact pure _
  | resume => exact pure _
  | next => exact pure _
  | finish =>
    simp only [Logger.on, Logging.resultOnly]
    split
    · exact (hw _).bind fun _ => hw _
    · exact (hw _).bind fun _ => (hw _).bind fun _ => hw _

theorem rosenbrockF64 (p : Profile) (x : List (Fl f)) : Leaves L (TestFunc.rosenbrockF64 p x : M σ F64) := by
  refine bind ?_ fun _ => pure _
  unfold TestFunc.rosenbrock
  split
  · exact fail _
  · exact fail _
  · exact foldL (fun _ _ => (index _ _).bind fun _ => (index _ _).bind fun _ => pure _) _ _

end Spec.Leaves
end Verif
