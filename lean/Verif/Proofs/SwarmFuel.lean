import Verif.Proofs.SwarmTurns
import Verif.Proofs.NoFuel
import Verif.Spec.Bounding

/-!
# The swarm loop ends by itself
-/

set_option linter.unusedSectionVars false

namespace Verif.PSO

open Verif Spec Spec.Swarm

variable {σ α : Type} [FloatT α]

/-- No component reports exhausted fuel; they may panic in any other way. -/
structure NoFuel (c : Comps σ α) : Prop where
  goal : ∀ x, (c.goal x).NoFuel
  stop : ∀ s, (c.stop s).NoFuel
  coordInit : c.coordInit.NoFuel
  velInit : c.velInit.NoFuel
  velCalc : ∀ s p, (c.velCalc s p).NoFuel
  postVel : ∀ f ∈ c.postVel, ∀ x, (f x).NoFuel
  postMove : ∀ f ∈ c.postMove, ∀ x, (f x).NoFuel
  loggers : ∀ l ∈ c.loggers, l.NoFuel

theorem noFuel_hooks : ∀ {hs : List (List α → M σ (List α))} {x : List α}, (∀ f ∈ hs, ∀ x, (f x).NoFuel) →
    (hooks hs x).NoFuel := by
  intro hs
  induction hs with
  | nil => intro x _; exact .pure _
  | cons f hs ih =>
    intro x h
    exact (h f (by simp) x).bind fun y => ih (x := y) (fun f hf => h f (by simp [hf]))

theorem noFuel_assert (b : Bool) : (M.assert b : M σ Unit).NoFuel := by
  unfold M.assert
  split
  · exact .pure _
  · intro s h; cases h

theorem noFuel_begin {c : Comps σ α} (h : NoFuel c) (s : Swarm α) : (renewSwarm c s).NoFuel := by
  unfold renewSwarm
  refine (World.noFuel_lift h.coordInit).bind fun _ => (World.noFuel_emit _).bind fun _ =>
    (World.noFuel_lift h.velInit).bind fun _ => (noFuel_assert _).bind fun _ => ?_
  refine (M.NoFuel.mapL (fun _ => (World.noFuel_lift (noFuel_hooks h.postMove)).bind fun _ =>
    (World.noFuel_emit _).bind fun _ => .pure _) _).bind fun _ => ?_
  exact (M.NoFuel.mapL (fun _ => (World.noFuel_lift (h.goal _)).bind fun _ =>
    (World.noFuel_emit _).bind fun _ => .pure _) _).bind fun _ => .pure _

theorem noFuel_step {c : Comps σ α} (h : NoFuel c) (s : Swarm α) : (step c s).NoFuel := by
  unfold step
  refine (M.NoFuel.foldL (fun s n => ?_) _ _).bind fun _ => (World.noFuel_emit _).bind fun _ =>
    (noFuel_callLoggers h.loggers).bind fun _ => .pure _
  unfold moveParticle
  exact (M.NoFuel.index _ _).bind fun _ => (World.noFuel_lift (h.velCalc _ _)).bind fun _ =>
    (World.noFuel_lift (noFuel_hooks h.postVel)).bind fun _ => (World.noFuel_emit _).bind fun _ =>
    (World.noFuel_lift (noFuel_hooks h.postMove)).bind fun _ => (World.noFuel_emit _).bind fun _ =>
    (World.noFuel_lift (h.goal _)).bind fun _ => (World.noFuel_emit _).bind fun _ => .pure _

theorem step_iteration {c : Comps σ α} {s s' : Swarm α} {w w' : World σ (List α)} (h : step c s w = .ok (s', w')) :
    s'.iteration = s.iteration + 1 := by
  obtain ⟨w1, h1, -⟩ := step_ok.1 h
  exact core_iteration h1

theorem loop_fuel {n : Nat} {c : Comps σ α} (hstop : Bounding n c.stop) :
    ∀ (f1 f2 : Nat) (p : Swarm α) (w : World σ (List α)), n < p.iteration + f1 → n < p.iteration + f2 →
      0 < f1 → 0 < f2 → loop c f1 p w = loop c f2 p w := by
  intro f1
  induction f1 with
  | zero => intro _ _ _ _ _ h; omega
  | succ f1 ih =>
    intro f2 p w h1 h2 _ hf2
    obtain ⟨f2, rfl⟩ : ∃ k, f2 = k + 1 := ⟨f2 - 1, by omega⟩
    rw [loop, loop, M.bind_run, M.bind_run]
    cases hq : (World.lift (c.stop p.state) : M (World σ (List α)) Bool) w with
    | error e => rfl
    | ok r =>
      obtain ⟨b, w1⟩ := r
      simp only
      obtain ⟨hb, -⟩ := World.lift_eq_ok.1 hq
      rw [M.bind_run, M.bind_run]
      cases hq2 : (World.emit (.check p.state b) : M (World σ (List α)) Unit) w1 with
      | error e => rfl
      | ok r =>
        obtain ⟨u, w2⟩ := r
        simp only
        cases b with
        | true => rfl
        | false =>
          have hlt : ¬ n ≤ p.iteration := fun hle => by cases hstop _ _ _ _ hle hb
          simp only [Bool.false_eq_true, ↓reduceIte]
          rw [M.bind_run, M.bind_run]
          cases hs : step c p w2 with
          | error e => rfl
          | ok r =>
            obtain ⟨p1, w3⟩ := r
            simp only
            have hi := step_iteration hs
            exact ih f2 p1 w3 (by omega) (by omega) (by omega) (by omega)

theorem loop_noFuel {n : Nat} {c : Comps σ α} (hstop : Bounding n c.stop) (hc : NoFuel c) :
    ∀ (f : Nat) (p : Swarm α) (w : World σ (List α)), n < p.iteration + f → 0 < f →
      loop c f p w ≠ .error .fuel := by
  intro f
  induction f with
  | zero => intro _ _ _ h; omega
  | succ f ih =>
    intro p w h1 _ herr
    rw [loop] at herr
    rcases M.bind_eq_error.1 herr with h | ⟨b, w1, hq, h⟩
    · exact World.noFuel_lift (hc.stop _) _ h
    rcases M.bind_eq_error.1 h with h | ⟨u, w2, -, h⟩
    · exact World.noFuel_emit _ _ h
    cases b with
    | true => simp only [↓reduceIte] at h; cases h
    | false =>
      simp only [Bool.false_eq_true, ↓reduceIte] at h
      rcases M.bind_eq_error.1 h with h | ⟨p1, w3, hs, h⟩
      · exact noFuel_step hc _ _ h
      · obtain ⟨hb, -⟩ := World.lift_eq_ok.1 hq
        have hlt : ¬ n ≤ p.iteration := fun hle => by cases hstop _ _ _ _ hle hb
        have hi := step_iteration hs
        exact ih p1 w3 (by omega) (by omega) h

theorem nextIterations_fuel {n : Nat} {o : Opt σ α} (hstop : Bounding n o.comps.stop) (f1 f2 : Nat)
    (w : World σ (List α)) (h1 : n < o.swarm.iteration + f1) (h2 : n < o.swarm.iteration + f2) (p1 : 0 < f1) (p2 : 0 < f2) :
    nextIterations f1 o w = nextIterations f2 o w := by
  unfold nextIterations
  rw [M.bind_run, M.bind_run]
  cases h5 : callLoggers .resume o.swarm.state 0 o.comps.loggers w with
  | error e => rfl
  | ok r =>
    obtain ⟨u, w5⟩ := r
    simp only
    rw [M.bind_run, M.bind_run, loop_fuel hstop f1 f2 _ w5 h1 h2 p1 p2]

theorem nextIterations_noFuel {n : Nat} {o : Opt σ α} (hstop : Bounding n o.comps.stop) (hc : NoFuel o.comps) (f : Nat)
    (w : World σ (List α)) (h1 : n < o.swarm.iteration + f) (p1 : 0 < f) : nextIterations f o w ≠ .error .fuel := by
  intro h
  unfold nextIterations at h
  rcases M.bind_eq_error.1 h with h | ⟨u, w5, -, h⟩
  · exact noFuel_callLoggers hc.loggers _ h
  rcases M.bind_eq_error.1 h with h | ⟨p', w6, -, h⟩
  · exact loop_noFuel hstop hc f _ w5 h1 p1 h
  rcases M.bind_eq_error.1 h with h | ⟨u, w6, -, h⟩
  · exact noFuel_callLoggers hc.loggers _ h
  · cases h

theorem findMin_fuel {n : Nat} {o : Opt σ α} (hstop : Bounding n o.comps.stop) (f1 f2 : Nat)
    (w : World σ (List α)) (h1 : n < f1) (h2 : n < f2) : findMin f1 o w = findMin f2 o w := by
  unfold findMin
  rw [M.bind_run, M.bind_run]
  cases hb : renewSwarm o.comps o.swarm w with
  | error e => rfl
  | ok r =>
    obtain ⟨p, w1⟩ := r
    simp only
    rw [M.bind_run, M.bind_run]
    cases h4 : callLoggers .start p.state 0 o.comps.loggers w1 with
    | error e => rfl
    | ok r =>
      obtain ⟨u, w4⟩ := r
      exact nextIterations_fuel (o := { o with swarm := p }) hstop f1 f2 w4 (by simp only; omega) (by simp only; omega)
        (by omega) (by omega)

theorem findMin_noFuel {n : Nat} {o : Opt σ α} (hstop : Bounding n o.comps.stop) (hc : NoFuel o.comps) (f : Nat)
    (w : World σ (List α)) (h1 : n < f) : findMin f o w ≠ .error .fuel := by
  intro h
  unfold findMin at h
  rcases M.bind_eq_error.1 h with h | ⟨p, w1, -, h⟩
  · exact noFuel_begin hc _ _ h
  rcases M.bind_eq_error.1 h with h | ⟨u, w5, -, h⟩
  · exact noFuel_callLoggers hc.loggers _ h
  exact nextIterations_noFuel (o := { o with swarm := p }) hstop hc f w5 (by simp only; omega) (by omega) h

/-- A bounded loop does at most `n` iterations. -/
theorem turns_bounded {n : Nat} {c : Comps σ α} (hstop : Bounding n c.stop) :
    ∀ (k : Nat) (q q' : Swarm α) (v v' : World σ (List α)), turns c k q v = .ok (q', v') →
      q'.iteration = q.iteration + k ∧ (0 < k → q.iteration + k ≤ n) := by
  intro k
  induction k with
  | zero =>
    intro q q' v v' h
    obtain ⟨rfl, -⟩ := M.pure_eq_ok.1 h
    exact ⟨rfl, fun h => absurd h (by omega)⟩
  | succ k ih =>
    intro q q' v v' ht
    obtain ⟨s1, hs1, q1, v1, hq1, hq2⟩ := turns_succ_ok.1 ht
    have hno : ¬ n ≤ q.iteration := fun hle => by cases hstop _ _ _ _ hle hs1
    have hi := step_iteration hq1
    obtain ⟨h1, h2⟩ := ih q1 q' v1 v' hq2
    refine ⟨by omega, fun _ => ?_⟩
    rcases Nat.eq_zero_or_pos k with h0 | h0
    · omega
    · have := h2 h0; omega

end Verif.PSO
