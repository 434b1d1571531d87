import Verif.Model.Genetic

/-!
# Computations that never report exhausted fuel
-/

namespace Verif

variable {σ T α β : Type}

namespace M

/-- `m` never fails with `.fuel`: it returns or panics. -/
def NoFuel (m : M σ α) : Prop := ∀ s, m s ≠ .error .fuel

theorem NoFuel.pure (a : α) : NoFuel (pure a : M σ α) := fun _ h => by cases h

theorem NoFuel.bind {m : M σ α} {f : α → M σ β} (hm : NoFuel m) (hf : ∀ a, NoFuel (f a)) :
    NoFuel (m >>= f) := by
  intro s h
  rcases bind_eq_error.1 h with h | ⟨a, s', -, h⟩
  · exact hm s h
  · exact hf a s' h

theorem NoFuel.mapL {f : α → M σ β} (hf : ∀ a, NoFuel (f a)) : ∀ as, NoFuel (mapL f as) := by
  intro as
  induction as with
  | nil => exact .pure _
  | cons a as ih => exact (hf a).bind fun _ => ih.bind fun _ => .pure _

theorem NoFuel.foldL {f : β → α → M σ β} (hf : ∀ b a, NoFuel (f b a)) : ∀ as b, NoFuel (foldL f b as) := by
  intro as
  induction as with
  | nil => intro b; exact .pure _
  | cons a as ih => intro b; exact (hf b a).bind fun _ => ih _

theorem NoFuel.unwrap (o : Option α) : NoFuel (unwrap o : M σ α) := by
  cases o with
  | none => intro s h; cases h
  | some a => exact .pure a

theorem NoFuel.index (l : List α) (i : Nat) : NoFuel (index l i : M σ α) := by
  unfold M.index
  cases l[i]? with
  | none => intro s h; cases h
  | some a => exact .pure a

end M

theorem World.noFuel_lift {m : M σ α} (h : m.NoFuel) : (World.lift m : M (World σ T) α).NoFuel := by
  intro w hw
  unfold World.lift at hw
  cases hm : m w.user with
  | error e => rw [hm] at hw; simp at hw; subst hw; exact h _ hm
  | ok p => rw [hm] at hw; simp at hw

theorem World.noFuel_emit (e : Ev T) : (World.emit e : M (World σ T) Unit).NoFuel := fun _ h => by cases h

/-- No callback of the logger reports exhausted fuel. -/
def Logger.NoFuel (l : Logger σ T) : Prop :=
  ∀ s, (l.start s).NoFuel ∧ (l.resume s).NoFuel ∧ (l.nextIteration s).NoFuel ∧ (l.finish s).NoFuel

theorem noFuel_callLoggers {k : LogKind} {s : AlgState T} :
    ∀ {ls : List (Logger σ T)} {i : Nat}, (∀ l ∈ ls, l.NoFuel) → (callLoggers k s i ls).NoFuel := by
  intro ls
  induction ls with
  | nil => intro i _; exact .pure _
  | cons l ls ih =>
    intro i h
    unfold callLoggers
    refine (World.noFuel_lift ?_).bind fun _ => (World.noFuel_emit _).bind fun _ => ih (fun l hl => h l (by simp [hl]))
    have := h l (by simp) s
    cases k
    · exact this.1
    · exact this.2.1
    · exact this.2.2.1
    · exact this.2.2.2

end Verif

namespace Verif.GA

open Verif

variable {σ T : Type}

/-- No component reports exhausted fuel; they may panic in any other way. -/
structure NoFuel (c : Comps σ T) : Prop where
  goal : ∀ x, (c.goal x).NoFuel
  stop : ∀ s, (c.stop s).NoFuel
  creator : c.creator.NoFuel
  pairing : ∀ p, (c.pairing p).NoFuel
  cross : ∀ xs, (c.cross xs).NoFuel
  mutation : ∀ x, (c.mutation x).NoFuel
  selections : ∀ f ∈ c.selections, ∀ p, (f p).NoFuel
  preBirths : ∀ f ∈ c.preBirths, ∀ p xs, (f p xs).NoFuel
  loggers : ∀ l ∈ c.loggers, l.NoFuel

theorem noFuel_append {c : Comps σ T} (h : NoFuel c) (p : Population T) (xs : List T) :
    (append c p xs).NoFuel :=
  M.NoFuel.foldL (fun _ x => (World.noFuel_lift (h.goal x)).bind fun _ =>
    (World.noFuel_emit _).bind fun _ => .pure _) xs p

theorem noFuel_preBirth {p : Population T} :
    ∀ {fs : List (Population T → List T → M σ (List T))} {i : Nat} {xs : List T},
      (∀ f ∈ fs, ∀ p xs, (f p xs).NoFuel) → (preBirth p i fs xs).NoFuel := by
  intro fs
  induction fs with
  | nil => intro i xs _; exact .pure _
  | cons f fs ih =>
    intro i xs h
    exact (World.noFuel_lift (h f (by simp) _ _)).bind fun _ => (World.noFuel_emit _).bind fun _ =>
      ih (fun f hf => h f (by simp [hf]))

theorem noFuel_select :
    ∀ {fs : List (Population T → M σ (Population T))} {i : Nat} {p : Population T},
      (∀ f ∈ fs, ∀ p, (f p).NoFuel) → (select i fs p).NoFuel := by
  intro fs
  induction fs with
  | nil => intro i xs _; exact .pure _
  | cons f fs ih =>
    intro i xs h
    exact (World.noFuel_lift (h f (by simp) _)).bind fun _ => (World.noFuel_emit _).bind fun _ =>
      ih (fun f hf => h f (by simp [hf]))

theorem noFuel_minCmp (a b : Individual T) : (Population.minCmp a b : M σ Ordering).NoFuel := by
  unfold Population.minCmp
  split
  · exact .pure _
  split
  · exact .pure _
  split
  · exact .pure _
  · exact .unwrap _

theorem noFuel_maxCmp (a b : Individual T) : (Population.maxCmp a b : M σ Ordering).NoFuel := by
  unfold Population.maxCmp
  split
  · exact .pure _
  split
  · exact .pure _
  split
  · exact .pure _
  · exact .unwrap _

theorem noFuel_minByLoop {α : Type} {cmp : α → α → M σ Ordering} (h : ∀ a b, (cmp a b).NoFuel) :
    ∀ (l : List α) (x : α), (Population.minByLoop cmp x l).NoFuel := by
  intro l
  induction l with
  | nil => intro x; exact .pure _
  | cons y ys ih =>
    intro x
    unfold Population.minByLoop
    refine (h x y).bind fun o => ?_
    cases o <;> exact ih _

theorem noFuel_maxByLoop {α : Type} {cmp : α → α → M σ Ordering} (h : ∀ a b, (cmp a b).NoFuel) :
    ∀ (l : List α) (x : α), (Population.maxByLoop cmp x l).NoFuel := by
  intro l
  induction l with
  | nil => intro x; exact .pure _
  | cons y ys ih =>
    intro x
    unfold Population.maxByLoop
    refine (h x y).bind fun o => ?_
    cases o <;> exact ih _

theorem noFuel_updateBestWorst (p : Population T) : (p.updateBestWorst : M σ (Population T)).NoFuel := by
  unfold Population.updateBestWorst
  refine M.NoFuel.bind ?_ fun _ => M.NoFuel.bind ?_ fun _ => .pure _
  · unfold Population.minBy
    split
    · exact .pure _
    · exact (noFuel_minByLoop noFuel_minCmp _ _).bind fun _ => .pure _
  · unfold Population.maxBy
    split
    · exact .pure _
    · exact (noFuel_maxByLoop noFuel_maxCmp _ _).bind fun _ => .pure _

theorem noFuel_step {c : Comps σ T} (h : NoFuel c) (p : Population T) : (step c p).NoFuel := by
  unfold step
  refine M.NoFuel.bind ?_ fun ks => ?_
  · refine (World.noFuel_lift (h.pairing p)).bind fun fam => (World.noFuel_emit _).bind fun _ => ?_
    refine M.NoFuel.bind (M.NoFuel.mapL (fun f => ?_) fam) fun _ => .pure _
    refine (M.NoFuel.mapL (fun i => (M.NoFuel.index _ _).bind fun _ => .pure _) f).bind fun _ => ?_
    exact (World.noFuel_lift (h.cross _)).bind fun _ => (World.noFuel_emit _).bind fun _ => .pure _
  refine M.NoFuel.bind ?_ fun ms => ?_
  · exact M.NoFuel.mapL (fun x => (World.noFuel_lift (h.mutation x)).bind fun _ =>
      (World.noFuel_emit _).bind fun _ => .pure _) ks
  refine (noFuel_preBirth h.preBirths).bind fun _ => (noFuel_append h _ _).bind fun _ =>
    (noFuel_select h.selections).bind fun _ => (noFuel_updateBestWorst _).bind fun _ =>
    (World.noFuel_emit _).bind fun _ => (noFuel_callLoggers h.loggers).bind fun _ => .pure _

end Verif.GA
