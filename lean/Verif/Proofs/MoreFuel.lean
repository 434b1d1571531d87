import Verif.Proofs.Genetic
import Verif.Proofs.Swarm

/-!
# More fuel changes nothing once there is enough
-/

namespace Verif.M

/-- `m` gives the same as `m'` unless `m` is out of fuel. -/
def Upto {σ α : Type} (m m' : M σ α) : Prop := ∀ s, m s ≠ .error .fuel → m' s = m s

variable {σ α β : Type}

theorem Upto.refl (m : M σ α) : Upto m m := fun _ _ => rfl

theorem Upto.bind {m m' : M σ α} {f f' : α → M σ β} (hm : Upto m m') (hf : ∀ a, Upto (f a) (f' a)) :
    Upto (m >>= f) (m' >>= f') := by
  intro s h
  rw [bind_run] at h
  rw [bind_run, bind_run]
  have h1 : m s ≠ .error .fuel := by
    intro he
    rw [he] at h
    exact h rfl
  rw [hm s h1]
  cases hs : m s with
  | error e => rfl
  | ok q =>
    obtain ⟨a, s'⟩ := q
    rw [hs] at h
    exact hf a s' h

end Verif.M

namespace Verif.GA

open Verif

variable {σ T : Type}

theorem loop_more (c : Comps σ T) (d : Nat) : ∀ (f : Nat) (p : Population T), M.Upto (loop c f p) (loop c (f + d) p) := by
  intro f
  induction f with
  | zero => intro p w h; exact absurd rfl h
  | succ f ih =>
    intro p
    rw [show f + 1 + d = f + d + 1 by omega]
    unfold loop
    refine (M.Upto.refl _).bind fun b => (M.Upto.refl _).bind fun _ => ?_
    cases b
    · exact (M.Upto.refl _).bind fun p => ih p
    · exact M.Upto.refl _

theorem nextIterations_more (o : Opt σ T) (f d : Nat) : M.Upto (nextIterations f o) (nextIterations (f + d) o) := by
  unfold nextIterations
  exact (M.Upto.refl _).bind fun _ => (loop_more _ d f _).bind fun _ => M.Upto.refl _

theorem findMin_more (o : Opt σ T) (f d : Nat) : M.Upto (findMin f o) (findMin (f + d) o) := by
  unfold findMin
  exact (M.Upto.refl _).bind fun _ => (M.Upto.refl _).bind fun _ => (M.Upto.refl _).bind fun _ =>
    (M.Upto.refl _).bind fun _ => nextIterations_more _ f d

end Verif.GA

namespace Verif.PSO

open Verif

variable {σ α : Type} [FloatT α]

theorem loop_more (c : Comps σ α) (d : Nat) : ∀ (f : Nat) (p : Swarm α), M.Upto (loop c f p) (loop c (f + d) p) := by
  intro f
  induction f with
  | zero => intro p w h; exact absurd rfl h
  | succ f ih =>
    intro p
    rw [show f + 1 + d = f + d + 1 by omega]
    unfold loop
    refine (M.Upto.refl _).bind fun b => (M.Upto.refl _).bind fun _ => ?_
    cases b
    · exact (M.Upto.refl _).bind fun p => ih p
    · exact M.Upto.refl _

theorem nextIterations_more (o : Opt σ α) (f d : Nat) : M.Upto (nextIterations f o) (nextIterations (f + d) o) := by
  unfold nextIterations
  exact (M.Upto.refl _).bind fun _ => (loop_more _ d f _).bind fun _ => M.Upto.refl _

theorem findMin_more (o : Opt σ α) (f d : Nat) : M.Upto (findMin f o) (findMin (f + d) o) := by
  unfold findMin
  exact (M.Upto.refl _).bind fun _ => (M.Upto.refl _).bind fun _ => nextIterations_more _ f d

end Verif.PSO
