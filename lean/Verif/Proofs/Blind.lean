import Verif.Model.Genetic
import Verif.Model.Swarm
import Verif.Proofs.Genetic
import Verif.Proofs.Swarm

/-!
# The trace is only an observation

Nothing that an optimizer does depends on what has been recorded before.
-/

set_option linter.unusedSectionVars false

namespace Verif

variable {σ α β T : Type}

/-- The outcome without the trace -/
def forget : Except Err (β × World σ T) → Except Err (β × σ)
  | .ok (b, w) => .ok (b, w.user)
  | .error e => .error e

/-- The outcome does not depend on the trace. -/
def Blind (a : M (World σ T) β) : Prop := ∀ s tr tr', forget (a ⟨s, tr⟩) = forget (a ⟨s, tr'⟩)

namespace Blind

theorem pure (b : β) : Blind (pure b : M (World σ T) β) := fun _ _ _ => rfl

theorem fail (e : Err) : Blind (M.fail e : M (World σ T) β) := fun _ _ _ => rfl

theorem bind {a : M (World σ T) α} {k : α → M (World σ T) β} (ha : Blind a) (hk : ∀ x, Blind (k x)) : Blind (a >>= k) := by
  intro s tr tr'
  have h := ha s tr tr'
  rw [M.bind_run, M.bind_run]
  cases h1 : a ⟨s, tr⟩ with
  | error e =>
    cases h2 : a ⟨s, tr'⟩ with
    | error e' => rw [h1, h2] at h; cases h; rfl
    | ok r => rw [h1, h2] at h; cases h
  | ok r =>
    cases h2 : a ⟨s, tr'⟩ with
    | error e' => rw [h1, h2] at h; cases h
    | ok r' =>
      obtain ⟨x, s1, tr1⟩ := r
      obtain ⟨x', s1', tr1'⟩ := r'
      rw [h1, h2] at h
      cases h
      exact hk x s1 tr1 tr1'

theorem ite {b : Prop} [Decidable b] {a a' : M (World σ T) α} (h : Blind a) (h' : Blind a') : Blind (if b then a else a') := by
  split <;> assumption

theorem lift (a : M σ α) : Blind (World.lift a : M (World σ T) α) := by
  intro s tr tr'
  unfold World.lift
  cases a s <;> rfl

theorem emit (e : Ev T) : Blind (World.emit e : M (World σ T) Unit) := fun _ _ _ => rfl

theorem index (l : List α) (i : Nat) : Blind (M.index l i : M (World σ T) α) := by
  unfold M.index
  cases l[i]? with
  | none => exact fail _
  | some a => exact pure a

theorem unwrap (o : Option α) : Blind (M.unwrap o : M (World σ T) α) := by
  cases o with
  | none => exact fail _
  | some a => exact pure a

theorem assert (b : Bool) : Blind (M.assert b : M (World σ T) Unit) := ite (pure _) (fail _)

theorem mapL {k : α → M (World σ T) β} (hk : ∀ a, Blind (k a)) : ∀ as, Blind (M.mapL k as) := by
  intro as
  induction as with
  | nil => exact pure _
  | cons a as ih => exact (hk a).bind fun _ => ih.bind fun _ => pure _

theorem foldL {k : β → α → M (World σ T) β} (hk : ∀ b a, Blind (k b a)) : ∀ as b, Blind (M.foldL k b as) := by
  intro as
  induction as with
  | nil => intro b; exact pure _
  | cons a as ih => intro b; exact (hk b a).bind fun _ => ih _

theorem callLoggers (k : LogKind) (s : AlgState T) : ∀ (ls : List (Logger σ T)) (i : Nat), Blind (callLoggers k s i ls) := by
  intro ls
  induction ls with
  | nil => intro i; exact pure _
  | cons l ls ih => intro i; exact (lift _).bind fun _ => (emit _).bind fun _ => ih _

end Blind

namespace GA

theorem blind_append (c : Comps σ T) (p : Population T) (xs : List T) : Blind (append c p xs) :=
  Blind.foldL (fun _ _ => (Blind.lift _).bind fun _ => (Blind.emit _).bind fun _ => .pure _) xs p

theorem blind_preBirth (p : Population T) : ∀ (fs : List (Population T → List T → M σ (List T))) (i : Nat) (xs : List T), Blind (preBirth p i fs xs) := by
  intro fs
  induction fs with
  | nil => intro i xs; exact .pure _
  | cons f fs ih => intro i xs; exact (Blind.lift _).bind fun _ => (Blind.emit _).bind fun _ => ih _ _

theorem blind_select : ∀ (fs : List (Population T → M σ (Population T))) (i : Nat) (p : Population T), Blind (select i fs p) := by
  intro fs
  induction fs with
  | nil => intro i xs; exact .pure _
  | cons f fs ih => intro i xs; exact (Blind.lift _).bind fun _ => (Blind.emit _).bind fun _ => ih _ _

theorem blind_minCmp (a b : Individual T) : Blind (Population.minCmp a b : M (World σ T) Ordering) := by
  unfold Population.minCmp
  split
  · exact .pure _
  split
  · exact .pure _
  split
  · exact .pure _
  · exact .unwrap _

theorem blind_maxCmp (a b : Individual T) : Blind (Population.maxCmp a b : M (World σ T) Ordering) := by
  unfold Population.maxCmp
  split
  · exact .pure _
  split
  · exact .pure _
  split
  · exact .pure _
  · exact .unwrap _

theorem blind_minByLoop {cmp : α → α → M (World σ T) Ordering} (h : ∀ a b, Blind (cmp a b)) :
    ∀ (l : List α) (x : α), Blind (Population.minByLoop cmp x l) := by
  intro l
  induction l with
  | nil => intro x; exact .pure _
  | cons y ys ih =>
    intro x
    unfold Population.minByLoop
    refine (h x y).bind fun o => ?_
    cases o <;> exact ih _

theorem blind_maxByLoop {cmp : α → α → M (World σ T) Ordering} (h : ∀ a b, Blind (cmp a b)) :
    ∀ (l : List α) (x : α), Blind (Population.maxByLoop cmp x l) := by
  intro l
  induction l with
  | nil => intro x; exact .pure _
  | cons y ys ih =>
    intro x
    unfold Population.maxByLoop
    refine (h x y).bind fun o => ?_
    cases o <;> exact ih _

theorem blind_updateBestWorst (p : Population T) : Blind (p.updateBestWorst : M (World σ T) (Population T)) := by
  unfold Population.updateBestWorst
  refine Blind.bind ?_ fun _ => Blind.bind ?_ fun _ => .pure _
  · unfold Population.minBy
    split
    · exact .pure _
    · exact (blind_minByLoop blind_minCmp _ _).bind fun _ => .pure _
  · unfold Population.maxBy
    split
    · exact .pure _
    · exact (blind_maxByLoop blind_maxCmp _ _).bind fun _ => .pure _

theorem blind_step (c : Comps σ T) (p : Population T) : Blind (step c p) := by
  unfold step
  refine Blind.bind ?_ fun ks => ?_
  · refine (Blind.lift _).bind fun fam => (Blind.emit _).bind fun _ => ?_
    refine Blind.bind (Blind.mapL (fun f => ?_) fam) fun _ => .pure _
    refine (Blind.mapL (fun i => (Blind.index _ _).bind fun _ => .pure _) f).bind fun _ => ?_
    exact (Blind.lift _).bind fun _ => (Blind.emit _).bind fun _ => .pure _
  refine Blind.bind ?_ fun ms => ?_
  · exact Blind.mapL (fun x => (Blind.lift _).bind fun _ => (Blind.emit _).bind fun _ => .pure _) ks
  exact (blind_preBirth _ _ _ _).bind fun _ => (blind_append _ _ _).bind fun _ =>
    (blind_select _ _ _).bind fun _ => (blind_updateBestWorst _).bind fun _ =>
    (Blind.emit _).bind fun _ => (Blind.callLoggers _ _ _ _).bind fun _ => .pure _

theorem blind_loop (c : Comps σ T) : ∀ fuel p, Blind (loop c fuel p) := by
  intro fuel
  induction fuel with
  | zero => intro p; exact .fail _
  | succ fuel ih =>
    intro p
    exact (Blind.lift _).bind fun _ => (Blind.emit _).bind fun _ => .ite (.pure _) ((blind_step c p).bind fun _ => ih _)

theorem blind_findMin (o : Opt σ T) (fuel : Nat) : Blind (findMin fuel o) :=
  (Blind.lift _).bind fun _ => (Blind.emit _).bind fun _ => (blind_append _ _ _).bind fun _ =>
    (Blind.callLoggers _ _ _ _).bind fun _ => (Blind.callLoggers _ _ _ _).bind fun _ => (blind_loop _ _ _).bind fun _ =>
    (Blind.callLoggers _ _ _ _).bind fun _ => .pure _

theorem blind_nextIterations (o : Opt σ T) (fuel : Nat) : Blind (nextIterations fuel o) :=
  (Blind.callLoggers _ _ _ _).bind fun _ => (blind_loop _ _ _).bind fun _ => (Blind.callLoggers _ _ _ _).bind fun _ => .pure _

end GA

namespace PSO

variable [FloatT α]

theorem blind_begin (c : Comps σ α) (s : Swarm α) : Blind (renewSwarm c s) := by
  unfold renewSwarm
  refine (Blind.lift _).bind fun _ => (Blind.emit _).bind fun _ =>
    (Blind.lift _).bind fun _ => (Blind.assert _).bind fun _ => ?_
  refine (Blind.mapL (fun _ => (Blind.lift _).bind fun _ => (Blind.emit _).bind fun _ => .pure _) _).bind fun _ => ?_
  exact (Blind.mapL (fun _ => (Blind.lift _).bind fun _ => (Blind.emit _).bind fun _ => .pure _) _).bind fun _ => .pure _

theorem blind_step (c : Comps σ α) (s : Swarm α) : Blind (step c s) := by
  unfold step
  refine (Blind.foldL (fun s n => ?_) _ _).bind fun _ => (Blind.emit _).bind fun _ =>
    (Blind.callLoggers _ _ _ _).bind fun _ => .pure _
  unfold moveParticle
  exact (Blind.index _ _).bind fun _ => (Blind.lift _).bind fun _ =>
    (Blind.lift _).bind fun _ => (Blind.emit _).bind fun _ =>
    (Blind.lift _).bind fun _ => (Blind.emit _).bind fun _ =>
    (Blind.lift _).bind fun _ => (Blind.emit _).bind fun _ => .pure _

theorem blind_loop (c : Comps σ α) : ∀ fuel s, Blind (loop c fuel s) := by
  intro fuel
  induction fuel with
  | zero => intro p; exact .fail _
  | succ fuel ih =>
    intro p
    exact (Blind.lift _).bind fun _ => (Blind.emit _).bind fun _ => .ite (.pure _) ((blind_step c p).bind fun _ => ih _)

theorem blind_findMin (o : Opt σ α) (fuel : Nat) : Blind (findMin fuel o) :=
  (blind_begin _ _).bind fun _ =>
    (Blind.callLoggers _ _ _ _).bind fun _ => (Blind.callLoggers _ _ _ _).bind fun _ => (blind_loop _ _ _).bind fun _ =>
    (Blind.callLoggers _ _ _ _).bind fun _ => .pure _

theorem blind_nextIterations (o : Opt σ α) (fuel : Nat) : Blind (nextIterations fuel o) :=
  (Blind.callLoggers _ _ _ _).bind fun _ => (blind_loop _ _ _).bind fun _ => (Blind.callLoggers _ _ _ _).bind fun _ => .pure _

end PSO

end Verif
