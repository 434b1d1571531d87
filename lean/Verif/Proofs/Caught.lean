import Verif.Model.Caught
import Verif.Spec.Genetic
import Verif.Spec.Swarm
import Verif.Proofs.Genetic

/-!
# As long as nothing panics, the optimizers of `Model/Caught.lean` are those of `Model/Genetic.lean` and `Model/Swarm.lean`
-/

namespace Verif.Caught

open Verif

variable {σ T X α β : Type}

/-- The computation as the models without caught panics see it: the memory is passed along, a panic ends everything. -/
def view (m : KM (St σ T X) α) : X → M (World σ T) (α × X) := fun p w =>
  match m ⟨w.user, w.trace, p⟩ with
  | (.ok a, st) => .ok ((a, st.mem), ⟨st.user, st.trace⟩)
  | (.error e, _) => .error e

theorem view_pure (a : α) (p : X) : view (pure a : KM (St σ T X) α) p = pure (a, p) := rfl

theorem view_fail (e : Err) (p : X) : view (KM.fail e : KM (St σ T X) α) p = M.fail e := rfl

theorem view_bind (m : KM (St σ T X) α) (f : α → KM (St σ T X) β) (p : X) :
    view (m >>= f) p = view m p >>= fun r => view (f r.1) r.2 := by
  funext w
  rw [M.bind_run]
  unfold view
  rw [KM.bind_run]
  rcases m ⟨w.user, w.trace, p⟩ with ⟨r, w'⟩
  cases r <;> rfl

theorem view_lift (m : KM σ α) (p : X) :
    view (lift m : KM (St σ T X) α) p = World.lift m.toM >>= fun a => pure (a, p) := by
  funext w
  rw [M.bind_run]
  unfold view lift World.lift KM.toM
  dsimp only
  rcases m w.user with ⟨r, s'⟩
  cases r <;> rfl

theorem view_emit (e : Ev T) (p : X) :
    view (emit e : KM (St σ T X) Unit) p = World.emit e >>= fun a => pure (a, p) := rfl

theorem view_mem (p : X) : view (mem : KM (St σ T X) X) p = pure (p, p) := rfl

theorem view_change (g : X → X) (p : X) : view (change g : KM (St σ T X) Unit) p = pure ((), g p) := rfl

theorem view_index (xs : List α) (i : Nat) (p : X) :
    view (KM.index xs i : KM (St σ T X) α) p = M.index xs i >>= fun a => pure (a, p) := by
  unfold KM.index M.index
  cases xs[i]? <;> rfl

theorem view_assert (b : Bool) (p : X) :
    view (KM.assert b : KM (St σ T X) Unit) p = M.assert b >>= fun a => pure (a, p) := by
  cases b <;> rfl

theorem view_mapL {f : α → KM (St σ T X) β} {g : α → M (World σ T) β} {p : X}
    (h : ∀ a, view (f a) p = g a >>= fun b => pure (b, p)) (as : List α) :
    view (KM.mapL f as) p = M.mapL g as >>= fun b => pure (b, p) := by
  induction as with
  | nil => rfl
  | cons a as ih =>
    rw [KM.mapL, M.mapL, view_bind, h]
    simp only [bind_assoc, pure_bind, view_bind, ih, view_pure]

theorem view_forL {f : α → KM (St σ T X) Unit} {g : X → α → M (World σ T) X}
    (h : ∀ a p, view (f a) p = g p a >>= fun b => pure ((), b)) (as : List α) (p : X) :
    view (KM.forL f as) p = M.foldL g p as >>= fun b => pure ((), b) := by
  induction as generalizing p with
  | nil => rfl
  | cons a as ih =>
    rw [KM.forL, M.foldL, view_bind, h]
    simp only [bind_assoc, pure_bind, ih]

/-- A logger whose panics end everything. -/
def Logger.forget (l : Logger σ T) : Verif.Logger σ T :=
  ⟨fun s => (l.start s).toM, fun s => (l.resume s).toM, fun s => (l.nextIteration s).toM, fun s => (l.finish s).toM⟩

theorem view_callLoggers (k : LogKind) (s : AlgState T) (ls : List (Logger σ T)) (i : Nat) (p : X) :
    view (callLoggers k s i ls : KM (St σ T X) Unit) p =
      Verif.callLoggers k s i (ls.map Logger.forget) >>= fun a => pure (a, p) := by
  induction ls generalizing i with
  | nil => rfl
  | cons l ls ih =>
    cases k <;>
    · simp only [callLoggers, List.map_cons, Verif.callLoggers, bind_assoc, pure_bind, view_bind, view_emit, view_lift,
        ih]
      rfl

/-! ## Genetic -/

namespace GA

/-- A selection that changes the population in place, as a function from populations to populations. -/
def forgetSelection (f : KM (σ × Population T) Unit) : Population T → M σ (Population T) := fun p s =>
  match f (s, p) with
  | (.ok _, s', p') => .ok (p', s')
  | (.error e, _) => .error e

/-- Components whose panics end everything. -/
def Comps.forget (c : Comps σ T) : Verif.GA.Comps σ T where
  goal x := (c.goal x).toM
  stop s := (c.stop s).toM
  creator := c.creator.toM
  pairing p := (c.pairing p).toM
  cross ps := (c.cross ps).toM
  mutation x := (c.mutation x).toM
  selections := c.selections.map forgetSelection
  preBirths := c.preBirths.map (fun f p xs => (f p xs).toM)
  loggers := c.loggers.map Logger.forget

theorem view_push (c : Comps σ T) (x : T) (p : Population T) :
    view (push c x) p = Verif.GA.push c.forget p x >>= fun p => pure ((), p) := by
  unfold push Verif.GA.push
  simp only [bind_assoc, pure_bind, view_bind, view_emit, view_lift, view_change]
  rfl

theorem view_append (c : Comps σ T) (xs : List T) (p : Population T) :
    view (append c xs) p = Verif.GA.append c.forget p xs >>= fun p => pure ((), p) :=
  view_forL (fun x p => view_push c x p) xs p

theorem view_crossFamily (c : Comps σ T) (q : Population T) (family : List Nat) (p : Population T) :
    view (crossFamily c q family) p = Verif.GA.crossFamily c.forget q family >>= fun r => pure (r, p) := by
  unfold crossFamily Verif.GA.crossFamily
  rw [view_bind, view_mapL (g := fun i => do
    let ind ← M.index q.individuals i
    pure ind.chromosomes)]
  · simp only [bind_assoc, pure_bind, view_bind, view_emit, view_lift, view_pure]
    rfl
  · intro i
    simp only [bind_assoc, pure_bind, view_bind, view_index, view_pure]

theorem view_runPairing (c : Comps σ T) (p : Population T) :
    view (runPairing c) p = Verif.GA.runPairing c.forget p >>= fun r => pure (r, p) := by
  unfold runPairing Verif.GA.runPairing
  simp only [bind_assoc, pure_bind, view_bind, view_emit, view_lift, view_pure, view_mem,
    view_mapL (fun fam => view_crossFamily c p fam p)]
  rfl

theorem view_mutate (c : Comps σ T) (xs : List T) (p : Population T) :
    view (mutate c xs) p = Verif.GA.mutate c.forget xs >>= fun r => pure (r, p) := by
  unfold mutate Verif.GA.mutate
  apply view_mapL
  intro x
  simp only [bind_assoc, pure_bind, view_bind, view_emit, view_lift, view_pure]
  rfl

theorem view_preBirth (q : Population T) (fs : List (Population T → List T → KM σ (List T))) (i : Nat) (xs : List T)
    (p : Population T) : view (preBirth q i fs xs) p =
      Verif.GA.preBirth q i (fs.map (fun f p xs => (f p xs).toM)) xs >>= fun r => pure (r, p) := by
  induction fs generalizing i xs with
  | nil => rfl
  | cons f fs ih =>
    rw [preBirth, List.map_cons, Verif.GA.preBirth]
    simp only [bind_assoc, pure_bind, view_bind, view_emit, view_lift, ih]

theorem view_liftSelection (f : KM (σ × Population T) Unit) (p : Population T) :
    view (liftSelection f) p = World.lift (forgetSelection f p) >>= fun p => pure ((), p) := by
  funext w
  rw [M.bind_run]
  unfold view liftSelection World.lift forgetSelection
  dsimp only
  rcases f (w.user, p) with ⟨r, s', p'⟩
  cases r <;> rfl

theorem view_select (fs : List (KM (σ × Population T) Unit)) (i : Nat) (p : Population T) :
    view (select i fs) p = Verif.GA.select i (fs.map forgetSelection) p >>= fun p => pure ((), p) := by
  induction fs generalizing i p with
  | nil => rfl
  | cons f fs ih =>
    rw [select, List.map_cons, Verif.GA.select]
    simp only [bind_assoc, pure_bind, view_bind, view_emit, view_liftSelection, view_mem, ih]

theorem minByLoop_any (x : Individual T) (xs : List (Individual T)) :
    ∃ a, ∀ (τ : Type) (s : τ), (Population.minByLoop Population.minCmp x xs : M τ _) s = .ok (a, s) := by
  induction xs generalizing x with
  | nil => exact ⟨x, fun _ _ => rfl⟩
  | cons y ys ih =>
    have hc : ∃ o, ∀ (τ : Type) (s : τ), (Population.minCmp x y : M τ _) s = .ok (o, s) := by
      unfold Population.minCmp
      by_cases h1 : x.fitness.isNan = true <;> by_cases h2 : y.fitness.isNan = true
      · exact ⟨.gt, fun τ s => by simp [h1, h2]; rfl⟩
      · exact ⟨.gt, fun τ s => by simp [h1, h2]; rfl⟩
      · exact ⟨.lt, fun τ s => by simp [h1, h2]; rfl⟩
      · unfold Fl.partialCmp
        simp only [h1, h2, Bool.and_self, Bool.or_self, Bool.false_eq_true, if_false]
        split
        · exact ⟨.lt, fun τ s => rfl⟩
        · split
          · exact ⟨.eq, fun τ s => rfl⟩
          · exact ⟨.gt, fun τ s => rfl⟩
    obtain ⟨o, ho⟩ := hc
    cases o with
    | gt =>
      obtain ⟨a, ha⟩ := ih y
      refine ⟨a, fun τ s => ?_⟩
      rw [Population.minByLoop, M.bind_run, ho]
      exact ha τ s
    | lt =>
      obtain ⟨a, ha⟩ := ih x
      refine ⟨a, fun τ s => ?_⟩
      rw [Population.minByLoop, M.bind_run, ho]
      exact ha τ s
    | eq =>
      obtain ⟨a, ha⟩ := ih x
      refine ⟨a, fun τ s => ?_⟩
      rw [Population.minByLoop, M.bind_run, ho]
      exact ha τ s

theorem maxByLoop_any (x : Individual T) (xs : List (Individual T)) :
    ∃ a, ∀ (τ : Type) (s : τ), (Population.maxByLoop Population.maxCmp x xs : M τ _) s = .ok (a, s) := by
  induction xs generalizing x with
  | nil => exact ⟨x, fun _ _ => rfl⟩
  | cons y ys ih =>
    have hc : ∃ o, ∀ (τ : Type) (s : τ), (Population.maxCmp x y : M τ _) s = .ok (o, s) := by
      unfold Population.maxCmp
      by_cases h1 : x.fitness.isNan = true <;> by_cases h2 : y.fitness.isNan = true
      · exact ⟨.lt, fun τ s => by simp [h1, h2]; rfl⟩
      · exact ⟨.lt, fun τ s => by simp [h1, h2]; rfl⟩
      · exact ⟨.gt, fun τ s => by simp [h1, h2]; rfl⟩
      · unfold Fl.partialCmp
        simp only [h1, h2, Bool.and_self, Bool.or_self, Bool.false_eq_true, if_false]
        split
        · exact ⟨.lt, fun τ s => rfl⟩
        · split
          · exact ⟨.eq, fun τ s => rfl⟩
          · exact ⟨.gt, fun τ s => rfl⟩
    obtain ⟨o, ho⟩ := hc
    cases o with
    | gt =>
      obtain ⟨a, ha⟩ := ih x
      refine ⟨a, fun τ s => ?_⟩
      rw [Population.maxByLoop, M.bind_run, ho]
      exact ha τ s
    | lt =>
      obtain ⟨a, ha⟩ := ih y
      refine ⟨a, fun τ s => ?_⟩
      rw [Population.maxByLoop, M.bind_run, ho]
      exact ha τ s
    | eq =>
      obtain ⟨a, ha⟩ := ih y
      refine ⟨a, fun τ s => ?_⟩
      rw [Population.maxByLoop, M.bind_run, ho]
      exact ha τ s

/-- The bookkeeping does not depend on the world. -/
theorem updateBestWorst_any (p : Population T) :
    ∃ q, ∀ (τ : Type) (s : τ), (p.updateBestWorst : M τ _) s = .ok (q, s) := by
  obtain ⟨inds, best, worst, it⟩ := p
  cases inds with
  | nil => exact ⟨_, fun τ s => rfl⟩
  | cons x xs =>
    obtain ⟨b, hb⟩ := minByLoop_any x xs
    obtain ⟨w, hw⟩ := maxByLoop_any x xs
    refine ⟨⟨x :: xs, some b, some w, it⟩, fun τ s => ?_⟩
    unfold Population.updateBestWorst Population.minBy Population.maxBy
    refine M.bind_eq_ok.2 ⟨some b, s, M.bind_eq_ok.2 ⟨b, s, hb τ s, rfl⟩, ?_⟩
    refine M.bind_eq_ok.2 ⟨some w, s, M.bind_eq_ok.2 ⟨w, s, hw τ s, rfl⟩, ?_⟩
    rfl

theorem view_updateBestWorst (p : Population T) :
    view (updateBestWorst : KM (St σ T (Population T)) Unit) p = p.updateBestWorst >>= fun p => pure ((), p) := by
  obtain ⟨q, hq⟩ := updateBestWorst_any p
  funext w
  rw [M.bind_run, hq]
  unfold view updateBestWorst
  dsimp only
  rw [hq]
  rfl

theorem view_step (c : Comps σ T) (p : Population T) :
    view (step c) p = Verif.GA.step c.forget p >>= fun p => pure ((), p) := by
  unfold step Verif.GA.step
  simp only [bind_assoc, pure_bind, view_bind, view_emit, view_mem, view_change, view_runPairing, view_mutate,
    view_preBirth, view_append, view_select, view_updateBestWorst, view_callLoggers]
  rfl

theorem view_loop (c : Comps σ T) (fuel : Nat) (p : Population T) :
    view (loop c fuel) p = Verif.GA.loop c.forget fuel p >>= fun p => pure ((), p) := by
  induction fuel generalizing p with
  | zero => rfl
  | succ fuel ih =>
    rw [loop, Verif.GA.loop]
    simp only [bind_assoc, pure_bind, view_bind, view_emit, view_mem, view_lift]
    congr 1
    funext b
    congr 1
    funext u
    cases b
    · simp only [Bool.false_eq_true, if_false, view_bind, view_step, bind_assoc, pure_bind, ih]
    · rfl

theorem view_nextIterations (c : Comps σ T) (fuel : Nat) (p : Population T) :
    view (nextIterations fuel c) p =
      Verif.GA.nextIterations fuel ⟨c.forget, p⟩ >>= fun r => pure (r.1, r.2.pop) := by
  unfold nextIterations Verif.GA.nextIterations
  simp only [bind_assoc, pure_bind, view_bind, view_mem, view_callLoggers, view_loop, view_pure]
  rfl

theorem view_findMin (c : Comps σ T) (fuel : Nat) (p : Population T) :
    view (findMin fuel c) p = Verif.GA.findMin fuel ⟨c.forget, p⟩ >>= fun r => pure (r.1, r.2.pop) := by
  unfold findMin Verif.GA.findMin
  simp only [bind_assoc, pure_bind, view_bind, view_mem, view_emit, view_lift, view_change, view_append,
    view_callLoggers, view_nextIterations]
  rfl

/-- A public call whose panic ends everything. -/
def Call.forget : Call σ T → Verif.GA.Call σ T
  | .findMin fuel => .findMin fuel
  | .nextIterations fuel => .nextIterations fuel
  | .setLoggers ls => .setLoggers (ls.map Logger.forget)
  | .setPairing f => .setPairing (fun p => (f p).toM)
  | .setCross f => .setCross (fun ps => (f ps).toM)
  | .setMutation f => .setMutation (fun x => (f x).toM)
  | .setSelection fs => .setSelection (fs.map forgetSelection)
  | .setPreBirth fs => .setPreBirth (fs.map (fun f p xs => (f p xs).toM))
  | .setStopChecker f => .setStopChecker (fun s => (f s).toM)

theorem call_findMin_opt {fuel : Nat} {o : Verif.GA.Opt σ T} {w : World σ T} {r w'}
    (h : Verif.GA.nextIterations fuel o w = .ok (r, w')) : r.2.comps = o.comps := by
  unfold Verif.GA.nextIterations at h
  simp only [M.bind_eq_ok, M.pure_eq_ok] at h
  obtain ⟨_, _, -, _, _, -, _, _, -, rfl, -⟩ := h
  rfl

theorem view_exec (c : Comps σ T) (k : Call σ T) (p : Population T) :
    view (exec c k) p = Verif.GA.call ⟨c.forget, p⟩ k.forget >>= fun r => pure (r.1, r.2.pop) := by
  cases k with
  | findMin fuel =>
    unfold exec Verif.GA.call Call.forget
    simp only [bind_assoc, pure_bind, view_bind, view_pure, view_findMin]
  | nextIterations fuel =>
    unfold exec Verif.GA.call Call.forget
    simp only [bind_assoc, pure_bind, view_bind, view_pure, view_nextIterations]
  | _ => rfl

end GA

/-! ## Swarm -/

namespace PSO

open Verif.PSO (Swarm Particle)

/-- Components whose panics end everything. -/
def Comps.forget (c : Comps σ α) : Verif.PSO.Comps σ α where
  goal x := (c.goal x).toM
  stop s := (c.stop s).toM
  coordInit := c.coordInit.toM
  velInit := c.velInit.toM
  velCalc s p := (c.velCalc s p).toM
  postVel := c.postVel.map (fun f v => (f v).toM)
  postMove := c.postMove.map (fun f v => (f v).toM)
  loggers := c.loggers.map Logger.forget

theorem toM_hooks (hs : List (List α → KM σ (List α))) (x : List α) :
    (hooks hs x).toM = Verif.PSO.hooks (hs.map (fun f v => (f v).toM)) x := by
  unfold hooks Verif.PSO.hooks
  rw [KM.toM_foldL]
  induction hs generalizing x with
  | nil => rfl
  | cons h hs ih =>
    rw [List.map_cons, M.foldL, M.foldL]
    congr 1
    funext y
    exact ih y

theorem view_renewSwarm (c : Comps σ α) (s : Swarm α) :
    view (renewSwarm c) s = Verif.PSO.renewSwarm c.forget s >>= fun s => pure ((), s) := by
  unfold renewSwarm Verif.PSO.renewSwarm
  have h1 : ∀ raw, view (X := Swarm α) (do
      let x ← lift (hooks c.postMove raw)
      emit (.moved raw x)
      pure x) s = (do
      let x ← World.lift (Verif.PSO.hooks c.forget.postMove raw)
      World.emit (.moved raw x)
      pure x) >>= fun b => pure (b, s) := by
    intro raw
    simp only [bind_assoc, pure_bind, view_bind, view_emit, view_lift, view_pure, toM_hooks]
    rfl
  have h2 : ∀ cs : List α × List α, view (X := Swarm α) (do
      let v ← lift (c.goal cs.1)
      emit (.goal cs.1 v)
      pure (Particle.new cs.1 cs.2 v)) s = (do
      let v ← World.lift (c.forget.goal cs.1)
      World.emit (.goal cs.1 v)
      pure (Particle.new cs.1 cs.2 v)) >>= fun b => pure (b, s) := by
    intro cs
    simp only [bind_assoc, pure_bind, view_bind, view_emit, view_lift, view_pure]
    rfl
  simp only [bind_assoc, pure_bind, view_bind, view_emit, view_lift, view_change, view_assert, view_mapL h1,
    view_mapL h2]
  rfl

variable [FloatT α]

theorem view_moveParticle (c : Comps σ α) (n : Nat) (s : Swarm α) :
    view (moveParticle c n) s = Verif.PSO.moveParticle c.forget s n >>= fun s => pure ((), s) := by
  unfold moveParticle Verif.PSO.moveParticle
  simp only [bind_assoc, pure_bind, view_bind, view_emit, view_lift, view_change, view_index, view_mem, toM_hooks,
    List.set_set]
  rfl

theorem view_step (c : Comps σ α) (s : Swarm α) :
    view (step c) s = Verif.PSO.step c.forget s >>= fun s => pure ((), s) := by
  unfold step Verif.PSO.step
  simp only [bind_assoc, pure_bind, view_bind, view_emit, view_mem, view_change,
    view_forL (fun n s => view_moveParticle c n s), view_callLoggers]
  rfl

theorem view_loop (c : Comps σ α) (fuel : Nat) (s : Swarm α) :
    view (loop c fuel) s = Verif.PSO.loop c.forget fuel s >>= fun s => pure ((), s) := by
  induction fuel generalizing s with
  | zero => rfl
  | succ fuel ih =>
    rw [loop, Verif.PSO.loop]
    simp only [bind_assoc, pure_bind, view_bind, view_emit, view_mem, view_lift]
    congr 1
    funext b
    congr 1
    funext u
    cases b
    · simp only [Bool.false_eq_true, if_false, view_bind, view_step, bind_assoc, pure_bind, ih]
    · rfl

theorem view_nextIterations (c : Comps σ α) (fuel : Nat) (s : Swarm α) :
    view (nextIterations fuel c) s =
      Verif.PSO.nextIterations fuel ⟨c.forget, s⟩ >>= fun r => pure (r.1, r.2.swarm) := by
  unfold nextIterations Verif.PSO.nextIterations
  simp only [bind_assoc, pure_bind, view_bind, view_mem, view_callLoggers, view_loop, view_pure]
  rfl

theorem view_findMin (c : Comps σ α) (fuel : Nat) (s : Swarm α) :
    view (findMin fuel c) s = Verif.PSO.findMin fuel ⟨c.forget, s⟩ >>= fun r => pure (r.1, r.2.swarm) := by
  unfold findMin Verif.PSO.findMin
  simp only [bind_assoc, pure_bind, view_bind, view_mem, view_renewSwarm, view_callLoggers, view_nextIterations]
  rfl

/-- A public call whose panic ends everything. -/
def Call.forget : Call σ α → Verif.PSO.Call σ α
  | .findMin fuel => .findMin fuel
  | .nextIterations fuel => .nextIterations fuel
  | .setStopChecker f => .setStopChecker (fun s => (f s).toM)
  | .setLoggers ls => .setLoggers (ls.map Logger.forget)
  | .setPostMoves fs => .setPostMoves (fs.map (fun f v => (f v).toM))
  | .setPostVelocityCalc fs => .setPostVelocityCalc (fs.map (fun f v => (f v).toM))

theorem view_exec (c : Comps σ α) (k : Call σ α) (s : Swarm α) :
    view (exec c k) s = Verif.PSO.call ⟨c.forget, s⟩ k.forget >>= fun r => pure (r.1, r.2.swarm) := by
  cases k with
  | findMin fuel =>
    unfold exec Verif.PSO.call Call.forget
    simp only [bind_assoc, pure_bind, view_bind, view_pure, view_findMin]
  | nextIterations fuel =>
    unfold exec Verif.PSO.call Call.forget
    simp only [bind_assoc, pure_bind, view_bind, view_pure, view_nextIterations]
  | _ => rfl

end PSO

end Verif.Caught
