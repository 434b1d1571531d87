import Verif.Proofs.CaughtInv
import Verif.Proofs.Swarm

/-!
# Invariants of swarm histories in which panics are caught
-/

namespace Verif.Caught.PSO

open Verif Spec.Caught Spec.Caught.PSO Caught
open Verif.PSO (Swarm Particle)

variable {σ α : Type}

/-- Conditions under which an indexed predicate survives everything that can happen in `next_iterations`. The index is
the number of particles that have been moved in the current iteration. -/
structure Inv (P : Comps σ α → Prop) (J : Nat → Swarm α → List (Ev (List α)) → Prop) : Prop where
  log : ∀ i k s tr, J 0 s tr → J 0 s (tr ++ [.log i k s.state])
  check : ∀ b s tr, J 0 s tr → J 0 s (tr ++ [.check s.state b])
  quiet : ∀ n e s tr, (∀ x v, e ≠ .goal x v) → Spec.Silent e → (∀ xs, e ≠ .created xs) → J n s tr → J n s (tr ++ [e])
  turn : ∀ c n s p raw v tr, P c → s.particles[n]? = some p → Returned (c.velCalc s p) raw →
    Returned (hooks c.postVel raw) v → J n s tr →
    J n { s with particles := s.particles.set n (p.setVelocity v) } tr
  move : ∀ c n s p raw x v tr, P c → s.particles[n]? = some p → Returned (hooks c.postMove raw) x → Returned (c.goal x) v →
    J n s tr → J (n + 1) { s with particles := s.particles.set n (p.moveTo x v) } (tr ++ [.goal x v])
  finish : ∀ n s tr, s.particles.length ≤ n → J n s tr →
    J 0 s.updateBest.updateWorst.nextIteration (tr ++ [.generation (Verif.PSO.agents s.updateBest.updateWorst.nextIteration)
      s.updateBest.updateWorst.state.best (s.updateBest.updateWorst.worst.map Particle.sol)
      (s.updateBest.updateWorst.iteration + 1)])

/-- ... and in `find_min`. -/
structure Renew (P : Comps σ α → Prop) (J : Nat → Swarm α → List (Ev (List α)) → Prop) : Prop where
  created : ∀ xs s tr, J 0 s tr → J 0 s (tr ++ [.created xs])
  asked : ∀ c s raw x v tr, P c → Returned (hooks c.postMove raw) x → Returned (c.goal x) v → J 0 s tr →
    J 0 s (tr ++ [.goal x v])
  renewed : ∀ c s ps tr, P c → (∀ p ∈ ps, ∃ raw x vel v, p = Particle.new x vel v ∧ Returned (hooks c.postMove raw) x ∧
    Ev.goal x v ∈ tr) → J 0 s tr → J 0 (s.reset.replaceParticles ps) tr

variable {P : Comps σ α → Prop} {J : Nat → Swarm α → List (Ev (List α)) → Prop}

/-- Wherever in an iteration. -/
def Some (J : Nat → Swarm α → List (Ev (List α)) → Prop) : St σ (List α) (Swarm α) → Prop := fun w => ∃ n, J n w.mem w.trace

theorem some_of {n : Nat} {w : St σ (List α) (Swarm α)} (h : On (J n) w) : Some J w := ⟨n, h⟩

variable [FloatT α]

theorem Inv.moveParticle (h : Inv P J) {c : Comps σ α} (hc : P c) (n len : Nat) :
    KM.Tri (On (fun s tr => J n s tr ∧ s.particles.length = len)) (moveParticle c n)
      (fun _ => On (fun s tr => J (n + 1) s tr ∧ s.particles.length = len)) (Some J) := by
  unfold PSO.moveParticle
  refine KM.Tri.bind tri_mem fun s0 => ?_
  refine KM.Tri.bind (KM.Tri.index (Q := fun p => On (fun s tr => (J n s tr ∧ s.particles.length = len) ∧ s = s0 ∧
      s0.particles[n]? = some p)) ?_ ?_) fun p => ?_
  · rintro w p ⟨h1, h2⟩ h3; exact ⟨h1, h2, h3⟩
  · rintro w ⟨h1, h2⟩; exact ⟨n, h1.1⟩
  refine KM.Tri.bind (tri_lift _ (fun w hw => ⟨n, hw.1.1⟩)) fun raw => ?_
  refine KM.Tri.bind (tri_lift _ (fun w hw => ⟨n, hw.1.1.1⟩)) fun v => ?_
  refine KM.Tri.bind (tri_emit (J' := fun s tr => (J n s tr ∧ s.particles.length = len) ∧ (s = s0 ∧
      s0.particles[n]? = some p) ∧ Returned (c.velCalc s0 p) raw ∧ Returned (hooks c.postVel raw) v) _ ?_) fun _ => ?_
  · rintro s tr ⟨⟨⟨⟨h1, h1'⟩, h2⟩, h3⟩, h4⟩
    exact ⟨⟨h.quiet _ _ _ _ (by simp) trivial (by simp) h1, h1'⟩, h2, h3, h4⟩
  refine KM.Tri.bind (tri_change (J' := fun s tr => (J n s tr ∧ s.particles.length = len) ∧
      s = { s0 with particles := s0.particles.set n (p.setVelocity v) } ∧ s0.particles[n]? = some p) _ ?_) fun _ => ?_
  · rintro s tr ⟨⟨h1, h1'⟩, ⟨rfl, h2⟩, h3, h4⟩
    exact ⟨⟨h.turn c n _ p raw v tr hc h2 h3 h4 h1, by simpa using h1'⟩, rfl, h2⟩
  refine KM.Tri.bind (tri_lift _ (fun w hw => ⟨n, hw.1.1⟩)) fun x => ?_
  refine KM.Tri.bind (tri_emit (J' := fun s tr => ((J n s tr ∧ s.particles.length = len) ∧
      s = { s0 with particles := s0.particles.set n (p.setVelocity v) } ∧ s0.particles[n]? = some p) ∧
      Returned (hooks c.postMove (List.zipWith FloatT.add p.coordinates v)) x) _ ?_) fun _ => ?_
  · rintro s tr ⟨⟨⟨h1, h1'⟩, h2⟩, h3⟩
    exact ⟨⟨⟨h.quiet _ _ _ _ (by simp) trivial (by simp) h1, h1'⟩, h2⟩, h3⟩
  intro w hw
  obtain ⟨⟨⟨h1, h1'⟩, h2, h3⟩, h4⟩ := hw
  have hlt : n < s0.particles.length := by
    by_contra hge
    rw [List.getElem?_eq_none (by omega)] at h3
    cases h3
  have hget : w.mem.particles[n]? = some (p.setVelocity v) := by
    rw [h2]; simp [hlt]
  rw [KM.bind_run]
  unfold lift
  rcases hg : c.goal x w.user with ⟨r, u⟩
  cases r with
  | error e =>
    constructor
    · intro a w' hr; cases hr
    · intro e' w' hr; cases hr; exact ⟨n, h1⟩
  | ok value =>
    constructor
    · intro a w' hr
      cases hr
      have hm := h.move c n w.mem _ _ x value w.trace hc hget h4 ⟨_, _, hg⟩ h1
      refine ⟨hm, ?_⟩
      simpa using h1'
    · intro e' w' hr; cases hr

theorem Inv.moves (h : Inv P J) {c : Comps σ α} (hc : P c) (len : Nat) : ∀ k n,
    KM.Tri (On (fun s tr => J n s tr ∧ s.particles.length = len)) (KM.forL (PSO.moveParticle c) (List.range' n k))
      (fun _ => On (fun s tr => J (n + k) s tr ∧ s.particles.length = len)) (Some J) := by
  intro k
  induction k with
  | zero => intro n; exact KM.Tri.pure (fun w hw => hw)
  | succ k ih =>
    intro n
    rw [List.range'_succ]
    refine KM.Tri.bind (h.moveParticle hc n len) fun _ => ?_
    have := ih (n + 1)
    rw [show n + 1 + k = n + (k + 1) by omega] at this
    exact this

omit [FloatT α] in
theorem Inv.finishes (h : Inv P J) {c : Comps σ α} (n : Nat) :
    KM.Tri (On (fun s tr => J n s tr ∧ s.particles.length ≤ n)) (do
      change Swarm.updateBest
      change Swarm.updateWorst
      change Swarm.nextIteration
      let s ← mem
      emit (.generation (Verif.PSO.agents s) s.state.best (s.worst.map Particle.sol) s.iteration)
      callLoggers .next s.state 0 c.loggers) (fun _ => On (J 0)) (Some J) := by
  intro w hw
  have hJ := h.finish n w.mem w.trace hw.2 hw.1
  generalize hq : w.mem.updateBest.updateWorst = q at hJ
  have hlog := tri_callLoggers (σ := σ) (X := Swarm α) (J := fun p tr => J 0 p tr ∧ p = q.nextIteration) (E := Some J) .next
    q.nextIteration.state (fun i p tr hp => ⟨hp.2 ▸ h.log i .next _ tr (hp.2 ▸ hp.1), hp.2⟩) (fun w hw => ⟨0, hw.1⟩) 0 c.loggers
  simp only [KM.bind_run, change, KM.modify, hq, mem, emit]
  obtain ⟨h1, h2⟩ := hlog ⟨w.user, w.trace ++ [.generation (Verif.PSO.agents q.nextIteration) q.state.best
    (q.worst.map Particle.sol) (q.iteration + 1)], q.nextIteration⟩ ⟨hJ, rfl⟩
  exact ⟨fun a w' hr => (h1 a w' hr).1, fun e w' hr => h2 e w' hr⟩

theorem Inv.step (h : Inv P J) {c : Comps σ α} (hc : P c) : KM.Tri (On (J 0)) (step c) (fun _ => On (J 0)) (Some J) := by
  unfold PSO.step
  refine KM.Tri.bind tri_mem fun s => ?_
  rw [List.range_eq_range']
  refine KM.Tri.bind ((h.moves hc s.particles.length s.particles.length 0).imp ?_ (fun _ _ h => h) (fun _ h => h)) fun _ => ?_
  · rintro w ⟨h1, h2⟩
    exact ⟨h1, by rw [h2]⟩
  · refine (h.finishes (c := c) (0 + s.particles.length)).imp ?_ (fun _ _ h => h) (fun _ h => h)
    rintro w ⟨h1, h2⟩
    exact ⟨h1, by omega⟩

theorem Inv.loop (h : Inv P J) {c : Comps σ α} (hc : P c) (fuel : Nat) :
    KM.Tri (On (J 0)) (loop c fuel) (fun _ => On (J 0)) (Some J) := by
  induction fuel with
  | zero => exact KM.Tri.fail (fun _ hw => ⟨0, hw⟩)
  | succ fuel ih =>
    unfold PSO.loop
    refine KM.Tri.bind tri_mem fun p => ?_
    refine KM.Tri.bind (tri_lift _ (fun _ hw => ⟨0, hw.1⟩)) fun b => ?_
    refine KM.Tri.bind (tri_emit (J' := J 0) _ (fun q tr hp => ?_)) fun _ => ?_
    · obtain ⟨⟨h1, rfl⟩, -⟩ := hp
      exact h.check b _ _ h1
    · split
      · exact KM.Tri.pure (fun _ hw => hw)
      · exact KM.Tri.bind (h.step hc) fun _ => ih

omit [FloatT α] in
theorem Inv.loggers (h : Inv P J) {c : Comps σ α} (k : LogKind) :
    KM.Tri (On (J 0)) (mem >>= fun p => callLoggers k (Swarm.state p) 0 c.loggers) (fun _ => On (J 0)) (Some J) := by
  refine KM.Tri.bind tri_mem fun p => ?_
  refine (tri_callLoggers (J := fun q tr => J 0 q tr ∧ q = p) (E := Some J) k p.state ?_ (fun w hw => ⟨0, hw.1⟩) 0 _).imp
    (fun w hw => hw) (fun _ w hw => hw.1) (fun w hw => hw)
  rintro i q tr ⟨h1, rfl⟩
  exact ⟨h.log i k _ _ h1, rfl⟩

theorem Inv.nextIterations (h : Inv P J) {c : Comps σ α} (hc : P c) (fuel : Nat) :
    KM.Tri (On (J 0)) (nextIterations fuel c) (fun r w => On (J 0) w ∧ r = w.mem.best.map Particle.sol) (Some J) := by
  have e : PSO.nextIterations fuel c = (do
      (mem >>= fun p => callLoggers .resume (Swarm.state p) 0 c.loggers)
      PSO.loop c fuel
      (mem >>= fun p => callLoggers .finish (Swarm.state p) 0 c.loggers)
      let s ← mem
      pure (match s.best with
        | none => none
        | some p => some (p.coordinates, p.value))) := rfl
  rw [e]
  refine KM.Tri.bind (h.loggers .resume) fun _ => ?_
  refine KM.Tri.bind (h.loop hc fuel) fun _ => ?_
  refine KM.Tri.bind (h.loggers .finish) fun _ => ?_
  refine KM.Tri.bind tri_mem fun p => ?_
  refine KM.Tri.pure (fun w hw => ?_)
  obtain ⟨h1, rfl⟩ := hw
  refine ⟨h1, ?_⟩
  cases w.mem.best <;> rfl

omit [FloatT α] in
theorem Inv.renewSwarm (h : Inv P J) (hn : Renew P J) {c : Comps σ α} (hc : P c) :
    KM.Tri (On (J 0)) (renewSwarm c) (fun _ => On (J 0)) (On (J 0)) := by
  unfold PSO.renewSwarm
  refine KM.Tri.bind (tri_lift _ (fun _ hw => hw)) fun raws => ?_
  refine KM.Tri.bind (tri_emit (J' := J 0) _ (fun s tr hp => hn.created raws s tr hp.1)) fun _ => ?_
  refine KM.Tri.bind (tri_lift _ (fun _ hw => hw)) fun vels => ?_
  refine KM.Tri.bind (KM.Tri.assert (Q := fun _ => On (J 0)) (fun w hw _ => hw.1) (fun w hw => hw.1)) fun _ => ?_
  refine KM.Tri.bind (KM.Tri.mapL (I := fun xs => On (fun s tr => J 0 s tr ∧
    ∀ x ∈ xs, ∃ raw, Returned (hooks c.postMove raw) x)) ?_ [] (fun w hw => ⟨hw, by simp⟩)) fun coords => ?_
  · intro xs raw _
    refine KM.Tri.bind (tri_lift _ (fun w hw => hw.1)) fun x => ?_
    refine KM.Tri.bind (tri_emit (J' := fun s tr => J 0 s tr ∧
      ∀ x' ∈ xs ++ [x], ∃ raw, Returned (hooks c.postMove raw) x') _ ?_) fun _ => KM.Tri.pure (fun _ hw => hw)
    rintro s tr ⟨⟨h1, h2⟩, h3⟩
    refine ⟨h.quiet _ _ _ _ (by simp) trivial (by simp) h1, fun x' hx' => ?_⟩
    rcases List.mem_append.1 hx' with hx' | hx'
    · exact h2 x' hx'
    · rw [List.mem_singleton] at hx'; subst hx'; exact ⟨raw, h3⟩
  rw [List.nil_append]
  refine KM.Tri.bind (KM.Tri.mapL (I := fun ps => On (fun s tr => (J 0 s tr ∧
    ∀ x ∈ coords, ∃ raw, Returned (hooks c.postMove raw) x) ∧ ∀ p ∈ ps, ∃ raw x vel v, p = Particle.new x vel v ∧
      Returned (hooks c.postMove raw) x ∧ Ev.goal x v ∈ tr)) ?_ [] (fun w hw => ⟨hw, by simp⟩)) fun ps => ?_
  · intro ps cs hcs
    refine KM.Tri.bind (tri_lift _ (fun w hw => hw.1.1)) fun v => ?_
    refine KM.Tri.bind (tri_emit (J' := fun s tr => (J 0 s tr ∧
      ∀ x ∈ coords, ∃ raw, Returned (hooks c.postMove raw) x) ∧ ∀ p ∈ ps ++ [Particle.new cs.1 cs.2 v],
      ∃ raw x vel v, p = Particle.new x vel v ∧
      Returned (hooks c.postMove raw) x ∧ Ev.goal x v ∈ tr) _ ?_) fun _ => KM.Tri.pure (fun _ hw => hw)
    rintro s tr ⟨⟨⟨h1, h2⟩, h3⟩, h4⟩
    obtain ⟨raw, hraw⟩ := h2 cs.1 (List.of_mem_zip hcs).1
    refine ⟨⟨hn.asked c s raw _ _ _ hc hraw h4 h1, h2⟩, fun p hp => ?_⟩
    rcases List.mem_append.1 hp with hp | hp
    · obtain ⟨raw, x, vel, v, q1, q2, q3⟩ := h3 p hp
      exact ⟨raw, x, vel, v, q1, q2, List.mem_append_left _ q3⟩
    · rw [List.mem_singleton] at hp
      exact ⟨raw, cs.1, cs.2, v, hp, hraw, by simp⟩
  rw [List.nil_append]
  intro w hw
  obtain ⟨⟨h1, -⟩, h3⟩ := hw
  constructor
  · intro u w' hr
    cases hr
    exact hn.renewed c _ ps _ hc h3 h1
  · intro e w' hr; cases hr

theorem Inv.findMin (h : Inv P J) (hn : Renew P J) {c : Comps σ α} (hc : P c) (fuel : Nat) :
    KM.Tri (On (J 0)) (findMin fuel c) (fun r w => On (J 0) w ∧ r = w.mem.best.map Particle.sol) (Some J) := by
  have e : PSO.findMin fuel c = (do
      PSO.renewSwarm c
      (mem >>= fun p => callLoggers .start (Swarm.state p) 0 c.loggers)
      PSO.nextIterations fuel c) := rfl
  rw [e]
  refine KM.Tri.bind ((h.renewSwarm hn hc).imp (fun _ h => h) (fun _ _ h => h) (fun _ h => ⟨0, h⟩)) fun _ => ?_
  exact KM.Tri.bind (h.loggers .start) fun _ => h.nextIterations hc fuel

theorem Inv.exec (h : Inv P J) (hn : Renew P J) {c : Comps σ α} (hc : P c) (k : Call σ α) :
    KM.Tri (On (J 0)) (exec c k) (fun r w => On (J 0) w ∧ ∀ b, r = some b → b = w.mem.best.map Particle.sol) (Some J) := by
  have hp : KM.Tri (On (J 0)) (pure none : KM (St σ (List α) (Swarm α)) (Verif.PSO.Ret α))
      (fun r w => On (J 0) w ∧ ∀ b, r = some b → b = w.mem.best.map Particle.sol) (Some J) :=
    KM.Tri.pure (fun w hw => ⟨hw, by simp⟩)
  cases k with
  | findMin fuel =>
    refine (tri_map some (h.findMin hn hc fuel)).imp (fun _ h => h) ?_ (fun _ h => h)
    rintro r w ⟨a, rfl, hw, ha⟩
    exact ⟨hw, fun b hb => by cases hb; exact ha⟩
  | nextIterations fuel =>
    refine (tri_map some (h.nextIterations hc fuel)).imp (fun _ h => h) ?_ (fun _ h => h)
    rintro r w ⟨a, rfl, hw, ha⟩
    exact ⟨hw, fun b hb => by cases hb; exact ha⟩
  | _ => exact hp

theorem runCaught_cons (c : Comps σ α) (k : Call σ α) (ks : List (Call σ α)) (w : St σ (List α) (Swarm α)) :
    runCaught c (k :: ks) w = ((exec c k w).1 :: (runCaught (after c k) ks (exec c k w).2).1,
      (runCaught (after c k) ks (exec c k w).2).2) := rfl

/-- Whatever panics, the invariant holds at the end. -/
theorem Inv.run (h : Inv P J) (hn : Renew P J) (hre : ∀ n s tr, J n s tr → J 0 s tr) :
    ∀ (ks : List (Call σ α)) (c : Comps σ α) (w : St σ (List α) (Swarm α)), Always P c ks →
    On (J 0) w → On (J 0) (runCaught c ks w).2.2 := by
  intro ks
  induction ks with
  | nil => intro c w _ hw; exact hw
  | cons k ks ih =>
    intro c w hc hw
    rw [runCaught_cons]
    apply ih _ _ hc.2
    obtain ⟨h1, h2⟩ := h.exec hn hc.1 k w hw
    rcases he : PSO.exec c k w with ⟨r, w'⟩
    cases r with
    | ok a => exact (h1 a w' he).1
    | error e => obtain ⟨n, hn⟩ := h2 e w' he; exact hre n _ _ hn

/-- Traces only grow. -/
theorem grows (tr0 : List (Ev (List α))) : Inv (σ := σ) (α := α) (fun _ => True) (fun _ _ tr => ∃ ext, tr = tr0 ++ ext) ∧
    Renew (σ := σ) (α := α) (fun _ => True) (fun _ _ tr => ∃ ext, tr = tr0 ++ ext) := by
  have snoc : ∀ (tr : List (Ev (List α))) e, (∃ ext, tr = tr0 ++ ext) → ∃ ext, tr ++ [e] = tr0 ++ ext := by
    rintro tr e ⟨ext, rfl⟩; exact ⟨ext ++ [e], by rw [List.append_assoc]⟩
  exact ⟨⟨fun _ _ _ _ h => snoc _ _ h, fun _ _ _ h => snoc _ _ h, fun _ _ _ _ _ _ _ h => snoc _ _ h,
    fun _ _ _ _ _ _ _ _ _ _ _ h => h, fun _ _ _ _ _ _ _ _ _ _ _ _ h => snoc _ _ h, fun _ _ _ _ h => snoc _ _ h⟩,
    ⟨fun _ _ _ h => snoc _ _ h, fun _ _ _ _ _ _ _ _ _ h => snoc _ _ h, fun _ _ _ _ _ _ h => h⟩⟩

omit [FloatT α] in
theorem always_true (c : Comps σ α) (ks : List (Call σ α)) : Always (fun _ => True) c ks := by
  induction ks generalizing c with
  | nil => trivial
  | cons k ks ih => exact ⟨trivial, ih _⟩

theorem runCaught_grows (ks : List (Call σ α)) (c : Comps σ α) (w : St σ (List α) (Swarm α)) :
    ∃ ext, (runCaught c ks w).2.2.trace = w.trace ++ ext :=
  (grows w.trace).1.run (grows w.trace).2 (fun _ _ _ h => h) ks c w (always_true c ks) ⟨[], by simp⟩

/-- What a call returned was the best of a state in which the invariant held. -/
theorem Inv.run_ret (h : Inv P J) (hn : Renew P J) (hre : ∀ n s tr, J n s tr → J 0 s tr) :
    ∀ (ks : List (Call σ α)) (c : Comps σ α) (w : St σ (List α) (Swarm α)), Always P c ks → On (J 0) w →
    ∀ b, .ok (some b) ∈ (runCaught c ks w).1 →
    ∃ p tr ext, J 0 p tr ∧ b = p.best.map Particle.sol ∧ (runCaught c ks w).2.2.trace = tr ++ ext := by
  intro ks
  induction ks with
  | nil => intro c w _ _ b hb; cases hb
  | cons k ks ih =>
    intro c w hc hw b hb
    rw [runCaught_cons] at hb ⊢
    obtain ⟨h1, h2⟩ := h.exec hn hc.1 k w hw
    rcases List.mem_cons.1 hb with hb | hb
    · rcases he : PSO.exec c k w with ⟨r, w'⟩
      rw [he] at hb
      dsimp only at hb
      subst hb
      obtain ⟨h3, h4⟩ := h1 _ _ he
      obtain ⟨ext, hext⟩ := runCaught_grows ks (after c k) w'
      exact ⟨_, _, ext, h3, h4 b rfl, hext⟩
    · refine ih _ _ hc.2 ?_ b hb
      rcases he : PSO.exec c k w with ⟨r, w'⟩
      cases r with
      | ok a => exact (h1 a w' he).1
      | error e => obtain ⟨n, hn⟩ := h2 e w' he; exact hre n _ _ hn

end Verif.Caught.PSO
