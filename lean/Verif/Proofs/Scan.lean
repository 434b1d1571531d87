import Verif.Spec.Scan
import Verif.Proofs.Finds
import Verif.Model.Creation
import Verif.Model.Velocity
import Verif.Model.Pairing
import Verif.Model.Mutation
import Verif.Model.Cross
import Verif.Model.Selection
import Verif.Model.TestFunc
import Verif.Model.Statistics
import Verif.Spec.Attach

/-!
# Computations that read a tape from its beginning

The tape is the part `L` of the world. A computation looks at finitely many of its numbers, each of which it takes away; it may panic.
-/

set_option linter.unusedSectionVars false

namespace Verif

open Spec

variable {ω σ κ α β γ T : Type}

theorem Spec.Draws.onTape (dr : Draws) (τ : Type) : (dr.beside τ).OnTape (Lens.fst (List Nat) τ) :=
  ⟨fun lo hi _ k => ⟨lo + k % (hi - lo), fun _ => rfl⟩, fun lo hi _ k => ⟨lo + k % (hi + 1 - lo), fun _ => rfl⟩,
    fun lo hi _ k => ⟨dr.openVal lo hi k, fun _ => rfl⟩, fun lo hi _ k => ⟨dr.closedVal lo hi k, fun _ => rfl⟩⟩

/-- The same tape in a larger world -/
def Lens.left (L : Lens σ (List Nat)) (κ : Type) : Lens (σ × κ) (List Nat) :=
  ⟨fun s => L.get s.1, fun t s => (L.set t s.1, s.2), fun t s => L.get_set t s.1, fun s => by rw [L.set_get], fun t t' s => by
    simp only [L.set_set]⟩

/-- The same tape in the world with the trace -/
def Lens.inWorld (L : Lens σ (List Nat)) (T : Type) : Lens (World σ T) (List Nat) :=
  ⟨fun s => L.get s.user, fun t s => ⟨L.set t s.user, s.trace⟩, fun t s => L.get_set t s.user, fun s => by rw [L.set_get], fun t t' s => by
    simp only [L.set_set]⟩

namespace Scans

variable {m : Nat} {L : Lens ω (List Nat)} {R : Rng ω} {f : Fmt}

theorem pure (a : α) : Scans m L (pure a : M ω α) := fun w => .ok a w fun _ => rfl

theorem fail (e : Err) : Scans m L (M.fail e : M ω α) := fun _ => .fail e fun _ => rfl

theorem treeBind {c : List Nat → Except Err (α × ω)} {k : α → M ω β} (h : Tree m L c) (hk : ∀ a, Scans m L (k a)) :
    Tree m L (fun t => match c t with
      | .ok (a, w) => k a w
      | .error e => .error e) := by
  induction h with
  | ok b w h => simpa only [h] using hk b w
  | fail e h => exact .fail e fun t => by simp only [h]
  | draw h ih => exact .draw ih

theorem bind {a : M ω α} {k : α → M ω β} (ha : Scans m L a) (hk : ∀ a, Scans m L (k a)) : Scans m L (a >>= k) := by
  intro w
  have := treeBind (ha w) hk
  have e : (fun t => (a >>= k) (L.set t w)) = (fun t => match a (L.set t w) with
      | .ok (b, w) => k b w
      | .error e => .error e) := by
    funext t
    rw [M.bind_run]
    cases a (L.set t w) <;> rfl
  rw [e]
  exact this

theorem ite {b : Prop} [Decidable b] {a a' : M ω α} (h : Scans m L a) (h' : Scans m L a') : Scans m L (if b then a else a') := by
  split <;> assumption

theorem index (l : List α) (i : Nat) : Scans m L (M.index l i : M ω α) := by
  unfold M.index
  cases l[i]? with
  | none => exact fail _
  | some a => exact pure a

theorem assert (b : Bool) : Scans m L (M.assert b : M ω Unit) := ite (pure _) (fail _)

theorem unwrap (o : Option α) : Scans m L (M.unwrap o : M ω α) := by
  cases o with
  | none => exact fail _
  | some a => exact pure a

theorem ofExcept (e : Except Err α) : Scans m L (M.ofExcept e : M ω α) := by
  cases e with
  | error e => exact fail e
  | ok a => exact pure a

theorem mapL {k : α → M ω β} (hk : ∀ a, Scans m L (k a)) : ∀ as, Scans m L (M.mapL k as) := by
  intro as
  induction as with
  | nil => exact pure _
  | cons a as ih => exact (hk a).bind fun _ => ih.bind fun _ => pure _

theorem foldL {k : β → α → M ω β} (hk : ∀ b a, Scans m L (k b a)) : ∀ as b, Scans m L (M.foldL k b as) := by
  intro as
  induction as with
  | nil => intro b; exact pure _
  | cons a as ih => intro b; exact (hk b a).bind fun _ => ih _

theorem replicate {a : M ω α} (ha : Scans m L a) : ∀ n, Scans m L (M.replicate n a) := by
  intro n
  induction n with
  | zero => exact pure _
  | succ n ih => exact ha.bind fun _ => ih.bind fun _ => pure _

/-- Computations on a part of the world that is not the tape -/
theorem zoom {K : Lens ω κ} (hget : ∀ t w, K.get (L.set t w) = K.get w) (hset : ∀ x t w, K.set x (L.set t w) = L.set t (K.set x w))
    (a : M κ α) : Scans m L (K.zoom a) := by
  intro w
  unfold Lens.zoom
  cases h : a (K.get w) with
  | error e => exact .fail e fun t => by simp only [hget, h]
  | ok r =>
    obtain ⟨b, x⟩ := r
    exact .ok b (K.set x w) fun t => by simp only [hget, h, hset]

/-- Computations in a smaller world that contains the tape -/
theorem zoomFst {L : Lens σ (List Nat)} {a : M σ α} (h : Scans m L a) : Scans m (L.left κ) ((Lens.fst σ κ).zoom a) := by
  intro w
  have key : ∀ {c : List Nat → Except Err (α × σ)}, Tree m L c → Tree m (L.left κ) (fun t => (match c t with
      | .ok (a, s) => .ok (a, (s, w.2))
      | .error e => .error e : Except Err (α × (σ × κ)))) := by
    intro c h
    induction h with
    | ok b s h => exact .ok b (s, w.2) fun t => by simp only [h]; rfl
    | fail e h => exact .fail e fun t => by simp only [h]
    | draw h ih => exact .draw ih
  exact key (h w.1)

theorem zoomSnd {L : Lens σ (List Nat)} (a : M κ α) : Scans m (L.left κ) ((Lens.snd σ κ).zoom a) :=
  zoom (fun _ _ => rfl) (fun _ _ _ => rfl) a

theorem lift {L : Lens σ (List Nat)} {a : M σ α} (h : Scans m L a) : Scans m (L.inWorld T) (World.lift a) := by
  intro w
  have key : ∀ {c : List Nat → Except Err (α × σ)}, Tree m L c → Tree m (L.inWorld T) (fun t => (match c t with
      | .ok (a, s) => .ok (a, ⟨s, w.trace⟩)
      | .error e => .error e : Except Err (α × World σ T))) := by
    intro c h
    induction h with
    | ok b s h => exact .ok b ⟨s, w.trace⟩ fun t => by simp only [h]; rfl
    | fail e h => exact .fail e fun t => by simp only [h]
    | draw h ih => exact .draw ih
  exact key (h w.user)

theorem emit {L : Lens σ (List Nat)} (e : Ev T) : Scans m (L.inWorld T) (World.emit e) :=
  fun w => .ok () ⟨w.user, w.trace ++ [e]⟩ fun _ => rfl

/-! ## Random numbers -/

theorem drawn {g : ω → α × ω} (h : ∀ w k, ∃ v, ∀ t, g (L.set (k :: t) w) = (v, L.set t w)) : Scans m L (M.ofState g) := by
  intro w
  refine .draw fun k _ => ?_
  obtain ⟨v, hv⟩ := h w k
  exact .ok v w fun t => congrArg Except.ok (hv t)

theorem uniformNat (hR : R.OnTape L) (lo hi : Nat) : Scans m L (R.uniformNat lo hi) := ite (drawn (hR.nat lo hi)) (fail _)

theorem uniformNatIncl (hR : R.OnTape L) (lo hi : Nat) : Scans m L (R.uniformNatIncl lo hi) := ite (drawn (hR.natIncl lo hi)) (fail _)

theorem uniformFl (hR : R.OnTape L) {g : Fmt} (lo hi : Fl g) : Scans m L (R.uniformFl lo hi) := ite (drawn (hR.fl lo hi)) (fail _)

theorem uniformFlIncl (hR : R.OnTape L) {g : Fmt} (lo hi : Fl g) : Scans m L (R.uniformFlIncl lo hi) := ite (drawn (hR.flIncl lo hi)) (fail _)

/-! ## Initial points -/

theorem drawGene (hR : R.OnTape L) (iv : Fl f × Fl f) : Scans m L (Creation.drawGene R iv) :=
  (uniformFlIncl hR _ _).bind fun _ => pure _

theorem randomCreator (hR : R.OnTape L) (c : Creation.RandomCreator f) : Scans m L (c.create R) :=
  replicate (mapL (drawGene hR) _) _

theorem randomInit (hR : R.OnTape L) (ivs : List (Fl f × Fl f)) (n : Nat) : Scans m L (Creation.randomInit R ivs n) :=
  replicate ((assert _).bind fun _ => mapL (drawGene hR) _) _

theorem zeroInit [FloatT α] (d n : Nat) : Scans m L (Creation.zeroInit d n : M ω (List (List α))) :=
  replicate (pure _) _

/-! ## Swarm -/

theorem draw01 [FloatT α] (hR : R.OnTape L) (g : Fmt) : Scans m L (Velocity.draw01 R g : M ω α) :=
  (uniformFlIncl hR _ _).bind fun _ => pure _

theorem canonical [FloatT α] (hR : R.OnTape L) (c : Velocity.Canonical α) (s : PSO.Swarm α) (p : PSO.Particle α) :
    Scans m L (Velocity.canonical R c s p) :=
  (unwrap _).bind fun _ => mapL (fun _ => (draw01 hR _).bind fun _ => (draw01 hR _).bind fun _ => (index _ _).bind fun _ =>
    (index _ _).bind fun _ => (index _ _).bind fun _ => (index _ _).bind fun _ => pure _) _

theorem inertia [FloatT α] (hR : R.OnTape L) (phiP phiG : α) {get : Nat → M ω α} (hg : ∀ i, Scans m L (get i))
    (s : PSO.Swarm α) (p : PSO.Particle α) : Scans m L (Velocity.inertia R phiP phiG get s p) :=
  (unwrap _).bind fun _ => (hg _).bind fun _ => mapL (fun _ => (draw01 hR _).bind fun _ => (draw01 hR _).bind fun _ =>
    (index _ _).bind fun _ => (index _ _).bind fun _ => (index _ _).bind fun _ => (index _ _).bind fun _ => pure _) _

theorem negReinf [FloatT α] (hR : R.OnTape L) (c : Velocity.NegReinf α) (s : PSO.Swarm α) (p : PSO.Particle α) :
    Scans m L (Velocity.negReinf R c s p) :=
  (unwrap _).bind fun _ => (unwrap _).bind fun _ => (unwrap _).bind fun _ => (unwrap _).bind fun _ => mapL (fun _ =>
    (draw01 hR _).bind fun _ => (draw01 hR _).bind fun _ => (draw01 hR _).bind fun _ => (draw01 hR _).bind fun _ =>
    (draw01 hR _).bind fun _ => (draw01 hR _).bind fun _ => (index _ _).bind fun _ => (index _ _).bind fun _ =>
    (index _ _).bind fun _ => (index _ _).bind fun _ => (index _ _).bind fun _ => (index _ _).bind fun _ =>
    (index _ _).bind fun _ => (index _ _).bind fun _ => pure _) _

theorem moveToBoundary [FloatT α] (ivs : List (α × α)) (xs : List α) : Scans m L (Hooks.moveToBoundary ivs xs : M ω (List α)) :=
  (assert _).bind fun _ => pure _

theorem teleport (hR : R.OnTape L) (t : Hooks.Teleport f) (xs : List (Fl f)) : Scans m L (Hooks.teleport R t xs) :=
  (assert _).bind fun _ => (uniformFl hR _ _).bind fun _ => ite (mapL (fun _ => uniformFlIncl hR _ _) _) (pure _)

theorem maxVelocityAbs [FloatT α] (vMax : α) (v : List α) : Scans m L (Hooks.maxVelocityAbs vMax v : M ω (List α)) :=
  ite (pure _) (pure _)

/-! ## Genetic operators -/

theorem uniformCheck (n : Nat) : Scans m L (Pairing.uniformCheck n : M ω Unit) := ite (pure _) (fail _)

theorem rounds (hR : R.OnTape L) (p : Population α) : ∀ n b, Scans m L (Pairing.rounds R p n b) := by
  intro n
  induction n with
  | zero => intro b; exact pure _
  | succ n ih => intro b; exact (uniformNat hR _ _).bind fun _ => (index _ _).bind fun _ => (index _ _).bind fun _ => ih _

theorem tournament (hR : R.OnTape L) (t : Pairing.Tournament) (p : Population α) : Scans m L (Pairing.tournament R t p) :=
  (uniformCheck _).bind fun _ => replicate (replicate ((uniformNat hR _ _).bind fun _ => rounds hR p _ _) _) _

theorem floatCrossExp (p : Profile) (hR : R.OnTape L) (exp2 : Fl f → Fl f) (xs : List (Fl f)) :
    Scans m L (Cross.floatCrossExp p R exp2 xs) := by
  refine (assert _).bind fun _ => (index _ _).bind fun _ => (index _ _).bind fun _ => (uniformNat hR _ _).bind fun _ =>
    (uniformNat hR _ _).bind fun _ => (ofExcept _).bind fun _ => (ofExcept _).bind fun _ => (uniformNatIncl hR _ _).bind fun _ => ?_
  split
  · exact (pure _).bind fun _ => pure _
  · exact (pure _).bind fun _ => pure _
  · exact (fail _).bind fun _ => pure _

theorem vecCrossLoop {single : List α → M ω (List α)} (hs : ∀ xs, Scans m L (single xs)) (p1 p2 : List α) :
    ∀ ns c, Scans m L (Cross.vecCrossLoop single p1 p2 ns c) := by
  intro ns
  induction ns with
  | nil => intro c; exact pure _
  | cons n ns ih => intro c; exact (index _ _).bind fun _ => (index _ _).bind fun _ => (hs _).bind fun _ => ih _

theorem vecCrossAllGenes {single : List α → M ω (List α)} (hs : ∀ xs, Scans m L (single xs)) (xs : List (List α)) :
    Scans m L (Cross.vecCrossAllGenes single xs) :=
  (assert _).bind fun _ => (index _ _).bind fun _ => (index _ _).bind fun _ => (vecCrossLoop hs _ _ _ _).bind fun _ => pure _

theorem flipLoop (hR : R.OnTape L) {w : Nat} : ∀ n (b : BitVec w), Scans m L (Mutation.flipLoop R n b) := by
  intro n
  induction n with
  | zero => intro b; exact pure _
  | succ n ih => intro b; exact (uniformNat hR _ _).bind fun _ => ih _

theorem bitwise (hR : R.OnTape L) (n : Nat) (x : Fl f) : Scans m L (Mutation.bitwise R n x) :=
  (flipLoop hR _ _).bind fun _ => pure _

theorem vecMutation (hR : R.OnTape L) (prob : F64) {single : α → M ω α} (hs : ∀ x, Scans m L (single x)) (xs : List α) :
    Scans m L (Mutation.vec R prob single xs) :=
  mapL (fun _ => (uniformFl hR _ _).bind fun _ => ite (hs _) (pure _)) _

theorem killFitnessNaN (p : Population α) : Scans m L (Selection.killFitnessNaN p : M ω (Population α)) := pure _

theorem findBest (p : Population α) (kl : List Nat) : ∀ ms bi bf, Scans m L (Selection.findBest p kl ms bi bf : M ω (Nat × F64)) := by
  intro ms
  induction ms with
  | nil => intro bi bf; exact pure _
  | cons m ms ih => intro bi bf; exact (index _ _).bind fun _ => (index _ _).bind fun _ => ite (ih _ _) (ih _ _)

theorem killWorst (p : Population α) (n : Nat) : Scans m L (Selection.killWorst p n : M ω (Population α)) := by
  refine (index _ _).bind fun _ => (foldL ?_ _ _).bind fun _ => foldL (fun _ _ => (index _ _).bind fun _ => pure _) _ _
  intro s n
  exact (index _ _).bind fun _ => ite (pure _) (ite (ite (pure _) (pure _)) (ite ((assert _).bind fun _ => (index _ _).bind fun _ =>
    (index _ _).bind fun _ => (findBest _ _ _ _ _).bind fun _ => pure _) (pure _)))

theorem limitPopulation (n : Nat) (p : Population α) : Scans m L (Selection.limitPopulation n p : M ω (Population α)) :=
  ite (killWorst _ _) (pure _)

theorem retain {keep : α → M ω Bool} (hk : ∀ x, Scans m L (keep x)) : ∀ xs, Scans m L (Selection.retain keep xs) := by
  intro xs
  induction xs with
  | nil => exact pure _
  | cons x xs ih => exact (hk _).bind fun _ => ih.bind fun _ => pure _

theorem preBirthInterval [FloatT α] (ivs : List (α × α)) (p : Population (List α)) (cs : List (List α)) :
    Scans m L (Selection.preBirthInterval ivs p cs : M ω (List (List α))) :=
  retain (fun _ => (assert _).bind fun _ => pure _) _

/-! ## Goals and stop checkers -/

theorem rosenbrockF64 (p : Profile) (x : List (Fl f)) : Scans m L (TestFunc.rosenbrockF64 p x : M ω F64) := by
  refine bind ?_ fun _ => pure _
  unfold TestFunc.rosenbrock
  split
  · exact fail _
  · exact fail _
  · exact foldL (fun _ _ => (index _ _).bind fun _ => (index _ _).bind fun _ => pure _) _ _

theorem any (s : AlgState T) : ∀ cs : List (AlgState T → M ω Bool), (∀ c ∈ cs, ∀ s, Scans m L (c s)) → Scans m L (Stop.any cs s) := by
  intro cs
  induction cs with
  | nil => intro _; exact pure _
  | cons c cs ih =>
    intro h
    exact (h c (by simp) s).bind fun _ => ite (pure _) (ih fun c hc => h c (by simp [hc]))

end Scans

/-! ## Loggers -/

theorem scans_callLoggers {m : Nat} {L : Lens σ (List Nat)} {k : LogKind} {s : AlgState T} :
    ∀ {ls : List (Logger σ T)} {i : Nat}, (∀ l ∈ ls, l.Scans m L) → Scans m (L.inWorld T) (callLoggers k s i ls) := by
  intro ls
  induction ls with
  | nil => intro i _; exact .pure _
  | cons l ls ih =>
    intro i h
    unfold callLoggers
    refine (Scans.lift ?_).bind fun _ => (Scans.emit _).bind fun _ => ih (fun l hl => h l (by simp [hl]))
    have := h l (by simp) s
    cases k
    · exact this.1
    · exact this.2.1
    · exact this.2.2.1
    · exact this.2.2.2

end Verif

/-! ## The genetic optimizer -/

namespace Verif.GA

open Verif

variable {σ κ T : Type} {m : Nat} {L : Lens σ (List Nat)}

theorem scans_append {c : Comps σ T} (h : Scan m L c) (p : Population T) (xs : List T) : Scans m (L.inWorld T) (append c p xs) :=
  Scans.foldL (fun _ x => (Scans.lift (h.goal x)).bind fun _ => (Scans.emit _).bind fun _ => .pure _) xs p

theorem scans_preBirth {p : Population T} :
    ∀ {fs : List (Population T → List T → M σ (List T))} {i : Nat} {xs : List T},
      (∀ f ∈ fs, ∀ p xs, Scans m L (f p xs)) → Scans m (L.inWorld T) (preBirth p i fs xs) := by
  intro fs
  induction fs with
  | nil => intro i xs _; exact .pure _
  | cons f fs ih =>
    intro i xs h
    exact (Scans.lift (h f (by simp) _ _)).bind fun _ => (Scans.emit _).bind fun _ => ih (fun f hf => h f (by simp [hf]))

theorem scans_select :
    ∀ {fs : List (Population T → M σ (Population T))} {i : Nat} {p : Population T},
      (∀ f ∈ fs, ∀ p, Scans m L (f p)) → Scans m (L.inWorld T) (select i fs p) := by
  intro fs
  induction fs with
  | nil => intro i xs _; exact .pure _
  | cons f fs ih =>
    intro i xs h
    exact (Scans.lift (h f (by simp) _)).bind fun _ => (Scans.emit _).bind fun _ => ih (fun f hf => h f (by simp [hf]))

section

variable {ω : Type} {L : Lens ω (List Nat)}

theorem scans_minCmp (a b : Individual T) : Scans m L (Population.minCmp a b : M ω Ordering) := by
  unfold Population.minCmp
  split
  · exact .pure _
  split
  · exact .pure _
  split
  · exact .pure _
  · exact .unwrap _

theorem scans_maxCmp (a b : Individual T) : Scans m L (Population.maxCmp a b : M ω Ordering) := by
  unfold Population.maxCmp
  split
  · exact .pure _
  split
  · exact .pure _
  split
  · exact .pure _
  · exact .unwrap _

theorem scans_minByLoop {α : Type} {cmp : α → α → M ω Ordering} (h : ∀ a b, Scans m L (cmp a b)) :
    ∀ (l : List α) (x : α), Scans m L (Population.minByLoop cmp x l) := by
  intro l
  induction l with
  | nil => intro x; exact .pure _
  | cons y ys ih =>
    intro x
    unfold Population.minByLoop
    refine (h x y).bind fun o => ?_
    cases o <;> exact ih _

theorem scans_maxByLoop {α : Type} {cmp : α → α → M ω Ordering} (h : ∀ a b, Scans m L (cmp a b)) :
    ∀ (l : List α) (x : α), Scans m L (Population.maxByLoop cmp x l) := by
  intro l
  induction l with
  | nil => intro x; exact .pure _
  | cons y ys ih =>
    intro x
    unfold Population.maxByLoop
    refine (h x y).bind fun o => ?_
    cases o <;> exact ih _

theorem scans_updateBestWorst (p : Population T) : Scans m L (p.updateBestWorst : M ω (Population T)) := by
  unfold Population.updateBestWorst
  refine Scans.bind ?_ fun _ => Scans.bind ?_ fun _ => .pure _
  · unfold Population.minBy
    split
    · exact .pure _
    · exact (scans_minByLoop scans_minCmp _ _).bind fun _ => .pure _
  · unfold Population.maxBy
    split
    · exact .pure _
    · exact (scans_maxByLoop scans_maxCmp _ _).bind fun _ => .pure _

end

theorem scans_step {c : Comps σ T} (h : Scan m L c) (p : Population T) : Scans m (L.inWorld T) (step c p) := by
  unfold step
  refine Scans.bind ?_ fun ks => ?_
  · refine (Scans.lift (h.pairing p)).bind fun fam => (Scans.emit _).bind fun _ => ?_
    refine Scans.bind (Scans.mapL (fun f => ?_) fam) fun _ => .pure _
    refine (Scans.mapL (fun i => (Scans.index _ _).bind fun _ => .pure _) f).bind fun _ => ?_
    exact (Scans.lift (h.cross _)).bind fun _ => (Scans.emit _).bind fun _ => .pure _
  refine Scans.bind ?_ fun ms => ?_
  · exact Scans.mapL (fun x => (Scans.lift (h.mutation x)).bind fun _ => (Scans.emit _).bind fun _ => .pure _) ks
  exact (scans_preBirth h.preBirths).bind fun _ => (scans_append h _ _).bind fun _ =>
    (scans_select h.selections).bind fun _ => (scans_updateBestWorst _).bind fun _ =>
    (Scans.emit _).bind fun _ => (scans_callLoggers h.loggers).bind fun _ => .pure _

theorem scans_loop {c : Comps σ T} (h : Scan m L c) : ∀ fuel p, Scans m (L.inWorld T) (loop c fuel p) := by
  intro fuel
  induction fuel with
  | zero => intro p; exact .fail _
  | succ fuel ih =>
    intro p
    exact (Scans.lift (h.stop _)).bind fun _ => (Scans.emit _).bind fun _ => .ite (.pure _) ((scans_step h p).bind fun _ => ih _)

theorem scans_findMin {o : Opt σ T} (h : Scan m L o.comps) (fuel : Nat) : Scans m (L.inWorld T) (findMin fuel o) :=
  (Scans.lift h.creator).bind fun _ => (Scans.emit _).bind fun _ => (scans_append h _ _).bind fun _ =>
    (scans_callLoggers h.loggers).bind fun _ => (scans_callLoggers h.loggers).bind fun _ => (scans_loop h _ _).bind fun _ =>
    (scans_callLoggers h.loggers).bind fun _ => .pure _

theorem scan_beside {c : Comps σ T} (h : Scan m L c) : Scan m (L.left κ) (c.beside κ) where
  goal x := (h.goal x).zoomFst
  stop s := (h.stop s).zoomFst
  creator := h.creator.zoomFst
  pairing p := (h.pairing p).zoomFst
  cross xs := (h.cross xs).zoomFst
  mutation x := (h.mutation x).zoomFst
  selections f hf := by
    obtain ⟨g, hg, rfl⟩ := List.mem_map.1 hf
    exact fun p => (h.selections g hg p).zoomFst
  preBirths f hf := by
    obtain ⟨g, hg, rfl⟩ := List.mem_map.1 hf
    exact fun p xs => (h.preBirths g hg p xs).zoomFst
  loggers l hl := by
    obtain ⟨g, hg, rfl⟩ := List.mem_map.1 hl
    intro s
    obtain ⟨h1, h2, h3, h4⟩ := h.loggers g hg s
    exact ⟨h1.zoomFst, h2.zoomFst, h3.zoomFst, h4.zoomFst⟩

theorem scan_attach {o : Opt σ T} (h : Scan m L o.comps) (i : Nat) (l : Logger κ T) : Scan m (L.left κ) (o.attach i l).comps := by
  have hb := scan_beside (κ := κ) h
  refine { hb with loggers := fun l' hl' => ?_ }
  rcases List.mem_append.1 hl' with h1 | h1
  · exact hb.loggers _ (List.mem_of_mem_take h1)
  rcases List.mem_cons.1 h1 with rfl | h1
  · exact fun s => ⟨.zoomSnd _, .zoomSnd _, .zoomSnd _, .zoomSnd _⟩
  · exact hb.loggers _ (List.mem_of_mem_drop h1)

theorem scan_counted {o : Opt σ T} (h : Scan m L o.comps) (p : Profile) : Scan m (L.left Stats.CallCount) (o.counted p).comps := by
  have hb := scan_beside (κ := Stats.CallCount) h
  exact { hb with goal := fun x => (Scans.zoomSnd _).bind fun _ => hb.goal x }

end Verif.GA

/-! ## The swarm -/

namespace Verif.PSO

open Verif

variable {σ κ α : Type} [FloatT α] {m : Nat} {L : Lens σ (List Nat)}

theorem scans_hooks : ∀ {hs : List (List α → M σ (List α))} {x : List α}, (∀ f ∈ hs, ∀ x, Scans m L (f x)) → Scans m L (hooks hs x) := by
  intro hs
  induction hs with
  | nil => intro x _; exact .pure _
  | cons f hs ih =>
    intro x h
    exact (h f (by simp) x).bind fun y => ih (x := y) (fun f hf => h f (by simp [hf]))

theorem scans_begin {c : Comps σ α} (h : Scan m L c) (s : Swarm α) : Scans m (L.inWorld (List α)) (renewSwarm c s) := by
  unfold renewSwarm
  refine (Scans.lift h.coordInit).bind fun _ => (Scans.emit _).bind fun _ =>
    (Scans.lift h.velInit).bind fun _ => (Scans.assert _).bind fun _ => ?_
  refine (Scans.mapL (fun _ => (Scans.lift (scans_hooks h.postMove)).bind fun _ => (Scans.emit _).bind fun _ => .pure _) _).bind fun _ => ?_
  exact (Scans.mapL (fun _ => (Scans.lift (h.goal _)).bind fun _ => (Scans.emit _).bind fun _ => .pure _) _).bind fun _ => .pure _

theorem scans_step {c : Comps σ α} (h : Scan m L c) (s : Swarm α) : Scans m (L.inWorld (List α)) (step c s) := by
  unfold step
  refine (Scans.foldL (fun s n => ?_) _ _).bind fun _ => (Scans.emit _).bind fun _ =>
    (scans_callLoggers h.loggers).bind fun _ => .pure _
  unfold moveParticle
  exact (Scans.index _ _).bind fun _ => (Scans.lift (h.velCalc _ _)).bind fun _ =>
    (Scans.lift (scans_hooks h.postVel)).bind fun _ => (Scans.emit _).bind fun _ =>
    (Scans.lift (scans_hooks h.postMove)).bind fun _ => (Scans.emit _).bind fun _ =>
    (Scans.lift (h.goal _)).bind fun _ => (Scans.emit _).bind fun _ => .pure _

theorem scans_loop {c : Comps σ α} (h : Scan m L c) : ∀ fuel s, Scans m (L.inWorld (List α)) (loop c fuel s) := by
  intro fuel
  induction fuel with
  | zero => intro p; exact .fail _
  | succ fuel ih =>
    intro p
    exact (Scans.lift (h.stop _)).bind fun _ => (Scans.emit _).bind fun _ => .ite (.pure _) ((scans_step h p).bind fun _ => ih _)

theorem scans_findMin {o : Opt σ α} (h : Scan m L o.comps) (fuel : Nat) : Scans m (L.inWorld (List α)) (findMin fuel o) :=
  (scans_begin h _).bind fun _ =>
    (scans_callLoggers h.loggers).bind fun _ => (scans_callLoggers h.loggers).bind fun _ => (scans_loop h _ _).bind fun _ =>
    (scans_callLoggers h.loggers).bind fun _ => .pure _

theorem scan_beside {c : Comps σ α} (h : Scan m L c) : Scan m (L.left κ) (c.beside κ) where
  goal x := (h.goal x).zoomFst
  stop s := (h.stop s).zoomFst
  coordInit := h.coordInit.zoomFst
  velInit := h.velInit.zoomFst
  velCalc s p := (h.velCalc s p).zoomFst
  postVel f hf := by
    obtain ⟨g, hg, rfl⟩ := List.mem_map.1 hf
    exact fun p => (h.postVel g hg p).zoomFst
  postMove f hf := by
    obtain ⟨g, hg, rfl⟩ := List.mem_map.1 hf
    exact fun p => (h.postMove g hg p).zoomFst
  loggers l hl := by
    obtain ⟨g, hg, rfl⟩ := List.mem_map.1 hl
    intro s
    obtain ⟨h1, h2, h3, h4⟩ := h.loggers g hg s
    exact ⟨h1.zoomFst, h2.zoomFst, h3.zoomFst, h4.zoomFst⟩

theorem scan_attach {o : Opt σ α} (h : Scan m L o.comps) (i : Nat) (l : Logger κ (List α)) : Scan m (L.left κ) (o.attach i l).comps := by
  have hb := scan_beside (κ := κ) h
  refine { hb with loggers := fun l' hl' => ?_ }
  rcases List.mem_append.1 hl' with h1 | h1
  · exact hb.loggers _ (List.mem_of_mem_take h1)
  rcases List.mem_cons.1 h1 with rfl | h1
  · exact fun s => ⟨.zoomSnd _, .zoomSnd _, .zoomSnd _, .zoomSnd _⟩
  · exact hb.loggers _ (List.mem_of_mem_drop h1)

theorem scan_counted {o : Opt σ α} (h : Scan m L o.comps) (p : Profile) : Scan m (L.left Stats.CallCount) (o.counted p).comps := by
  have hb := scan_beside (κ := Stats.CallCount) h
  exact { hb with goal := fun x => (Scans.zoomSnd _).bind fun _ => hb.goal x }

end Verif.PSO
