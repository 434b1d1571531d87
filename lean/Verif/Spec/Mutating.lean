import Verif.Spec.Finds
import Verif.Spec.Lasting

/-!
# Specification vocabulary: mutations that can lead into a region

The user's world is a tape with the numbers of the draws that are still to come, and the components' own state.
-/

namespace Verif.Spec

open Verif GA

variable {τ T β : Type}

/-- Whatever the state of the components: the computation does not panic, looks at finitely many numbers of the tape, takes those it looks at away,
and its result has the property `Q`. -/
def Draw (m : Nat) (a : M (List Nat × τ) β) (Q : β → Prop) : Prop := ∀ u, ∃ K, Ends m (fun b _ => Q b) K (fun t => a (t, u))

/-- Components of a genetic optimizer that do not panic and keep the population alive (`Lasting`), each of which draws finitely many random numbers
in a call. There are `b` families or more in a generation, every family has a child, every mutation leads into the region `A` with a chance of
at least `q`, and no pre-birth hook rejects a child in the region. -/
structure Mutating (m b : Nat) (q : ℚ) (A B L : T → Prop) (c : Comps (List Nat × τ) T) : Prop where
  lasting : Lasting B L c
  goal : ∀ x, B x → Draw m (c.goal x) (fun _ => True)
  creator : Draw m c.creator (fun _ => True)
  pairing : ∀ p, p.individuals ≠ [] → Draw m (c.pairing p) (fun fams => b ≤ fams.length)
  cross : ∀ xs, xs.length = 2 → (∀ x ∈ xs, B x) → Draw m (c.cross xs) (fun ys => ys ≠ [])
  mutation : ∀ x, L x → ∀ u, ∃ K, Ends m (fun _ _ => True) K (fun t => c.mutation x (t, u)) ∧
    q ≤ chance (List.replicate K m) (fun t => ∃ y s', c.mutation x (t, u) = .ok (y, s') ∧ A y)
  preBirths : ∀ f ∈ c.preBirths, ∀ p xs, (∀ x ∈ xs, L x) → Draw m (f p xs) (fun ys => (∀ y ∈ ys, L y) ∧ ∀ x ∈ xs, A x → x ∈ ys)
  selections : ∀ f ∈ c.selections, ∀ p, (∀ i ∈ p.individuals, B i.chromosomes) → Draw m (f p) (fun p' => OnlyKills p p')
  loggers : ∀ l ∈ c.loggers, ∀ s, Draw m (l.start s) (fun _ => True) ∧ Draw m (l.resume s) (fun _ => True) ∧
    Draw m (l.nextIteration s) (fun _ => True) ∧ Draw m (l.finish s) (fun _ => True)

end Verif.Spec
