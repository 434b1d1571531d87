import Verif.Proofs.Stagnate
import Verif.Proofs.SwarmFuel
import Verif.Proofs.SwarmInv
import Verif.Proofs.Private
import Verif.Spec.Stagnate

/-!
# The swarm loop with `GoalNotChange` ends by itself
-/

set_option linter.unusedSectionVars false

namespace Verif.PSO

open Verif Spec Spec.Swarm Stop

variable {σ α : Type} [FloatT α]

theorem Consented.winv {τ : Type} {L : Lens σ τ} {chk : AlgState (List α) → M τ Bool} {c : Comps σ α}
    (h : Consented L chk c) (t : τ) :
    WInv (fun w => L.get w.user = t) { c with stop := fun _ => pure false } :=
  { quiet := fun e w _ hJ => hJ
    goal := fun x w v s' hJ hr => (h.goal x _ _ _ hr).trans hJ
    check := fun s w b s' hJ hr => by rw [← (M.pure_eq_ok.1 hr).2]; exact hJ
    log := fun i l hl k s w s' hJ hr => (h.loggers l (List.mem_of_getElem? hl) k s _ _ _ hr).trans hJ
    coordInit := fun w _ s' hJ hr => (h.operators.coordInit w.user _ s' hr).trans hJ
    velInit := fun w _ s' hJ hr => (h.operators.velInit w.user _ s' hr).trans hJ
    velCalc := fun s p w _ s' hJ hr => (h.operators.velCalc s p w.user _ s' hr).trans hJ
    postVel := fun f hf x w _ s' hJ hr => (h.operators.postVel f hf x w.user _ s' hr).trans hJ
    postMove := fun f hf x w _ s' hJ hr => (h.operators.postMove f hf x w.user _ s' hr).trans hJ }

/-- All goal values in the swarm satisfy `Val`, and there is a best one. -/
structure Valued (Val : F64 → Prop) (s : Swarm α) (b : Particle α) : Prop where
  particles : ∀ p ∈ s.particles, Val p.value
  best : s.best = some b
  best_val : Val b.value

theorem moves_val {c : Comps σ α} {Val : F64 → Prop} (hg : ∀ raw x v, Hooked c.postMove raw x → Returned (c.goal x) v → Val v) {ns : List Nat}
    {s s' : Swarm α} {evs : List (Ev (List α))} (h : Moves c ns s evs s') (hs : ∀ p ∈ s.particles, Val p.value) :
    ∀ p ∈ s'.particles, Val p.value := by
  induction h with
  | nil => exact hs
  | cons hp hm _ ih =>
    obtain ⟨m⟩ := hm
    apply ih
    intro q hq
    rcases List.mem_or_eq_of_mem_set hq with h | rfl
    · exact hs q h
    · exact hg _ _ _ m.moved m.goal_ok

theorem step_valued {c : Comps σ α} {Val : F64 → Prop} (hg : ∀ raw x v, Hooked c.postMove raw x → Returned (c.goal x) v → Val v)
    {s s' : Swarm α} {b : Particle α} {w w' : World σ (List α)} (hs : Valued Val s b) (h : step c s w = .ok (s', w')) :
    ∃ b', Valued Val s' b' ∧ Better b'.value b.value ∧ s'.iteration = s.iteration + 1 := by
  have hit := step_iteration h
  obtain ⟨w1, h1, -⟩ := step_ok.1 h
  obtain ⟨evs, s1, hm, rfl, -⟩ := core_ok h1
  have hv := moves_val hg hm hs.particles
  have hb : s1.best = some b := hm.same.1.trans hs.best
  have e1 : s1.updateBest.updateWorst.nextIteration.particles = s1.particles := by
    show s1.updateBest.updateWorst.particles = _
    rw [updateWorst_particles, updateBest_particles]
  have e2 : s1.updateBest.updateWorst.nextIteration.best = s1.updateBest.best := by
    show s1.updateBest.updateWorst.best = _
    rw [updateWorst_best]
  have e3 : ∃ b', s1.updateBest.best = some b' ∧ Val b'.value ∧ Better b'.value b.value := by
    unfold Swarm.updateBest
    cases hf : findBest s1.particles with
    | none => exact ⟨b, hb, hs.best_val, .inl rfl⟩
    | some nb =>
      rw [hb]
      simp only
      by_cases hc : compareFloats nb.value b.value = .lt
      · rw [if_pos (by rw [hc]; rfl)]
        exact ⟨nb, rfl, hv nb ((findBest_spec.2 nb hf).1), .inr hc⟩
      · rw [if_neg (by simpa using hc)]
        exact ⟨b, hb, hs.best_val, .inl rfl⟩
  obtain ⟨b', h1, h2, h3⟩ := e3
  exact ⟨b', ⟨by rw [e1]; exact hv, by rw [e2]; exact h1, h2⟩, h3, hit⟩

/-- What the loop needs: the object's fields and a potential. -/
theorem loop_stagnates {p : Profile} {L : Lens σ GNC} {c : Comps σ α} (hc : Consented L (goalNotChange p) c) {d : F64}
    {m : Nat} {Val Old : F64 → Prop} {κ : F64 → F64 → Nat} (hk : Counts d Better Val Old κ)
    (hg : ∀ raw x v, Hooked c.postMove raw x → Returned (c.goal x) v → Val v) :
    ∀ (f1 f2 : Nat) (s : Swarm α) (b : Particle α) (w : World σ (List α)), Valued Val s b →
      (L.get w.user).delta = d → (L.get w.user).maxIter = m → Old (L.get w.user).oldGoal →
      potential κ (L.get w.user) b.value s.iteration < f1 → potential κ (L.get w.user) b.value s.iteration < f2 →
      loop c f1 s w = loop c f2 s w ∧
      (NoFuel c → loop c f1 s w ≠ .error .fuel) ∧
      (∀ s' w', loop c f1 s w = .ok (s', w') → s'.iteration ≤ s.iteration + potential κ (L.get w.user) b.value s.iteration) := by
  intro f1
  induction f1 with
  | zero => intro _ _ _ _ _ _ _ _ h; omega
  | succ f1 ih =>
    intro f2 s b w hs hd hm ho h1 h2
    obtain ⟨f2, rfl⟩ : ∃ k, f2 = k + 1 := ⟨f2 - 1, by omega⟩
    -- one turn
    have turn : ∀ s' (w1 : World σ (List α)) s1 w2, c.stop s.state w.user = .ok (false, s') →
        w1.user = s' → step c s w1 = .ok (s1, w2) → ∃ b', Valued Val s1 b' ∧
          (L.get w2.user).delta = d ∧ (L.get w2.user).maxIter = m ∧ Old (L.get w2.user).oldGoal ∧
          s1.iteration = s.iteration + 1 ∧
          potential κ (L.get w2.user) b'.value s1.iteration < potential κ (L.get w.user) b.value s.iteration := by
      rintro s' w1 s1 w2 hq rfl hst
      obtain ⟨b', hs', hbt, hit⟩ := step_valued hg hs hst
      have hgn := hc.stop _ _ _ hq
      have hkeep : L.get w2.user = L.get w1.user :=
        (hc.winv (L.get w1.user)).step s w1 s1 w2 rfl hst
      have hbest : s.state.best = some (b.coordinates, b.value) := by
        show s.best.map Particle.sol = _
        rw [hs.best]; rfl
      obtain ⟨g1, g2, g3, g4⟩ := hk.decreases hd hbest hs.best_val hs'.best_val ho hbt hgn
      refine ⟨b', hs', by rw [hkeep]; exact g1, by rw [hkeep]; exact g2.trans hm, by rw [hkeep]; exact g3, hit, ?_⟩
      rw [hkeep, hit]
      exact g4
    refine ⟨?_, ?_, ?_⟩
    · rw [loop, loop, M.bind_run, M.bind_run]
      cases hq : (World.lift (c.stop s.state) : M (World σ (List α)) Bool) w with
      | error e => rfl
      | ok r =>
        obtain ⟨x, w1⟩ := r
        simp only
        obtain ⟨hx, -⟩ := World.lift_eq_ok.1 hq
        rw [M.bind_run, M.bind_run]
        cases hq2 : (World.emit (.check s.state x) : M (World σ (List α)) Unit) w1 with
        | error e => rfl
        | ok r =>
          obtain ⟨u, w2⟩ := r
          simp only
          cases x with
          | true => rfl
          | false =>
            simp only [Bool.false_eq_true, ↓reduceIte]
            rw [M.bind_run, M.bind_run]
            cases hst : step c s w2 with
            | error e => rfl
            | ok r =>
              obtain ⟨s1, w3⟩ := r
              simp only
              obtain ⟨b', g1, g2, g3, g4, -, g5⟩ := turn _ w2 s1 w3 hx (World.emit_eq_ok.1 hq2).1 hst
              exact (ih f2 s1 b' w3 g1 g2 g3 g4 (by omega) (by omega)).1
    · intro hn herr
      rw [loop] at herr
      rcases M.bind_eq_error.1 herr with h | ⟨x, w1, hq, h⟩
      · exact World.noFuel_lift (hn.stop _) _ h
      rcases M.bind_eq_error.1 h with h | ⟨u, w2, hq2, h⟩
      · exact World.noFuel_emit _ _ h
      obtain ⟨hx, -⟩ := World.lift_eq_ok.1 hq
      cases x with
      | true => simp only [↓reduceIte] at h; cases h
      | false =>
        simp only [Bool.false_eq_true, ↓reduceIte] at h
        rcases M.bind_eq_error.1 h with h | ⟨s1, w3, hst, h⟩
        · exact noFuel_step hn _ _ h
        · obtain ⟨b', g1, g2, g3, g4, -, g5⟩ := turn _ w2 s1 w3 hx (World.emit_eq_ok.1 hq2).1 hst
          exact (ih f1 s1 b' w3 g1 g2 g3 g4 (by omega) (by omega)).2.1 hn h
    · intro s2 w' hr
      obtain ⟨x, s', hx, hr⟩ := loop_succ_ok.1 hr
      rcases hr with ⟨rfl, rfl, rfl⟩ | ⟨rfl, s1, w1, hst, hr⟩
      · omega
      · obtain ⟨b', g1, g2, g3, g4, g6, g5⟩ := turn _ _ s1 w1 hx rfl hst
        have := (ih f1 s1 b' w1 g1 g2 g3 g4 (by omega) (by omega)).2.2 _ _ hr
        omega

theorem begin_valued {c : Comps σ α} {Val : F64 → Prop} (hg : ∀ raw x v, Hooked c.postMove raw x → Returned (c.goal x) v → Val v)
    (hne : ¬ Returned c.coordInit []) {s s' : Swarm α} {w w' : World σ (List α)}
    (h : renewSwarm c s w = .ok (s', w')) : ∃ b, Valued Val s' b ∧ s'.iteration = 0 := by
  obtain ⟨raws, xs, vs, ps, h1, -, hl, h3, h4, rfl, -⟩ := begin_ok (c := c) h
  have hv : ∀ p ∈ ps, Val p.value := by
    intro p hp
    obtain ⟨i, hi, rfl⟩ := List.getElem_of_mem hp
    have := (List.forall₂_iff_get.1 h4).2 i (by rw [h4.length_eq]; exact hi) hi
    have hx : ∃ raw, Hooked c.postMove raw ((xs.zip vs).get ⟨i, by rw [h4.length_eq]; exact hi⟩).1 := by
      have hm := (List.of_mem_zip (List.get_mem (xs.zip vs) ⟨i, by rw [h4.length_eq]; exact hi⟩)).1
      obtain ⟨j, hj, he⟩ := List.getElem_of_mem hm
      exact ⟨raws[j]'(by rw [h3.length_eq]; exact hj), by
        rw [← he]; exact (List.forall₂_iff_get.1 h3).2 j (by rw [h3.length_eq]; exact hj) hj⟩
    obtain ⟨raw, hx⟩ := hx
    exact hg _ _ _ hx this.1
  have hlen : ps.length = raws.length := by
    rw [← h4.length_eq, List.length_zip, ← h3.length_eq, hl, Nat.min_self]
  cases hb : findBest ps with
  | none =>
    rw [findBest_spec.1.1 hb] at hlen
    rw [List.length_eq_zero_iff.1 hlen.symm] at h1
    exact absurd h1 hne
  | some b => exact ⟨b, ⟨hv, rfl, hv b (findBest_spec.2 b hb).1⟩, rfl⟩

variable {p : Profile} {L : Lens σ GNC} {d : F64} {Val Old : F64 → Prop} {κ : F64 → F64 → Nat}

theorem nextIterations_stagnates {o : Opt σ α} (hc : Consented L (goalNotChange p) o.comps)
    (hk : Counts d Better Val Old κ) (hg : ∀ raw x v, Hooked o.comps.postMove raw x → Returned (o.comps.goal x) v → Val v) (b : Particle α)
    (w : World σ (List α)) (hs : Valued Val o.swarm b) (hd : (L.get w.user).delta = d) (ho : Old (L.get w.user).oldGoal)
    (f1 f2 : Nat) (h1 : potential κ (L.get w.user) b.value o.swarm.iteration < f1)
    (h2 : potential κ (L.get w.user) b.value o.swarm.iteration < f2) :
    nextIterations f1 o w = nextIterations f2 o w ∧
    (NoFuel o.comps → nextIterations f1 o w ≠ .error .fuel) ∧
    (∀ r o' w', nextIterations f1 o w = .ok ((r, o'), w') →
      o'.swarm.iteration ≤ o.swarm.iteration + potential κ (L.get w.user) b.value o.swarm.iteration) := by
  have key : ∀ u w5, callLoggers .resume o.swarm.state 0 o.comps.loggers w = .ok (u, w5) →
      loop o.comps f1 o.swarm w5 = loop o.comps f2 o.swarm w5 ∧
      (NoFuel o.comps → loop o.comps f1 o.swarm w5 ≠ .error .fuel) ∧
      (∀ s' w', loop o.comps f1 o.swarm w5 = .ok (s', w') →
        s'.iteration ≤ o.swarm.iteration + potential κ (L.get w.user) b.value o.swarm.iteration) := by
    intro u w5 hw5
    have hkeep : L.get w5.user = L.get w.user := (hc.winv (L.get w.user)).loggers .resume o.swarm.state w u w5 rfl hw5
    have := loop_stagnates hc (m := (L.get w.user).maxIter) hk hg f1 f2 o.swarm b w5 hs (by rw [hkeep]; exact hd)
      (by rw [hkeep]) (by rw [hkeep]; exact ho) (by rw [hkeep]; exact h1) (by rw [hkeep]; exact h2)
    rw [hkeep] at this
    exact this
  refine ⟨?_, ?_, ?_⟩
  · unfold nextIterations
    rw [M.bind_run, M.bind_run]
    cases h5 : callLoggers .resume o.swarm.state 0 o.comps.loggers w with
    | error e => rfl
    | ok r =>
      obtain ⟨u, w5⟩ := r
      simp only
      rw [M.bind_run, M.bind_run, (key u w5 h5).1]
  · intro hn h
    unfold nextIterations at h
    rcases M.bind_eq_error.1 h with h | ⟨u, w5, hw5, h⟩
    · exact noFuel_callLoggers hn.loggers _ h
    rcases M.bind_eq_error.1 h with h | ⟨p', w6, -, h⟩
    · exact (key u w5 hw5).2.1 hn h
    rcases M.bind_eq_error.1 h with h | ⟨u, w6, -, h⟩
    · exact noFuel_callLoggers hn.loggers _ h
    · cases h
  · intro r o' w' h
    unfold nextIterations at h
    obtain ⟨u, w5, hw5, h⟩ := M.bind_eq_ok.1 h
    obtain ⟨s', w6, h6, h⟩ := M.bind_eq_ok.1 h
    obtain ⟨u', w7, h7, h⟩ := M.bind_eq_ok.1 h
    obtain ⟨h8, -⟩ := M.pure_eq_ok.1 h
    cases h8
    exact (key u w5 hw5).2.2 _ _ h6

theorem findMin_stagnates {o : Opt σ α} (hc : Consented L (goalNotChange p) o.comps)
    (hk : Counts d Better Val Old κ) (hg : ∀ raw x v, Hooked o.comps.postMove raw x → Returned (o.comps.goal x) v → Val v)
    (hne : ¬ Returned o.comps.coordInit [])
    (w : World σ (List α)) (hd : (L.get w.user).delta = d) (ho : Old (L.get w.user).oldGoal) (N : Nat)
    (hN : ∀ v, Val v → potential κ (L.get w.user) v 0 ≤ N) (f1 f2 : Nat) (h1 : N < f1) (h2 : N < f2) :
    findMin f1 o w = findMin f2 o w ∧
    (NoFuel o.comps → findMin f1 o w ≠ .error .fuel) ∧
    (∀ r o' w', findMin f1 o w = .ok ((r, o'), w') → o'.swarm.iteration ≤ N) := by
  have key : ∀ s w1 u w4, renewSwarm o.comps o.swarm w = .ok (s, w1) →
      callLoggers .start s.state 0 o.comps.loggers w1 = .ok (u, w4) →
      nextIterations f1 { o with swarm := s } w4 = nextIterations f2 { o with swarm := s } w4 ∧
      (NoFuel o.comps → nextIterations f1 { o with swarm := s } w4 ≠ .error .fuel) ∧
      (∀ r o' w', nextIterations f1 { o with swarm := s } w4 = .ok ((r, o'), w') → o'.swarm.iteration ≤ N) := by
    intro s w1 u w4 hw1 hw4
    obtain ⟨b, hb, hi⟩ := begin_valued hg hne hw1
    have hk1 : L.get w1.user = L.get w.user := (hc.winv (L.get w.user)).renewSwarm o.swarm w s w1 rfl hw1
    have hk4 : L.get w4.user = L.get w.user := (hc.winv (L.get w.user)).loggers .start s.state w1 u w4 hk1 hw4
    have hpot : potential κ (L.get w4.user) b.value s.iteration ≤ N := by rw [hk4, hi]; exact hN _ hb.best_val
    obtain ⟨g1, g2, g3⟩ := nextIterations_stagnates (o := { o with swarm := s }) hc hk hg b w4 hb
      (by rw [hk4]; exact hd) (by rw [hk4]; exact ho) f1 f2 (by simp only; omega) (by simp only; omega)
    refine ⟨g1, g2, fun r o' w' hr => ?_⟩
    have := g3 r o' w' hr
    simp only [hi, Nat.zero_add] at this hpot
    omega
  refine ⟨?_, ?_, ?_⟩
  · unfold findMin
    rw [M.bind_run, M.bind_run]
    cases hb : renewSwarm o.comps o.swarm w with
    | error e => rfl
    | ok r =>
      obtain ⟨s, w1⟩ := r
      simp only
      rw [M.bind_run, M.bind_run]
      cases h4 : callLoggers .start s.state 0 o.comps.loggers w1 with
      | error e => rfl
      | ok r =>
        obtain ⟨u, w4⟩ := r
        exact (key s w1 u w4 hb h4).1
  · intro hn h
    unfold findMin at h
    rcases M.bind_eq_error.1 h with h | ⟨s, w1, hw1, h⟩
    · exact noFuel_begin hn _ _ h
    rcases M.bind_eq_error.1 h with h | ⟨u, w4, hw4, h⟩
    · exact noFuel_callLoggers hn.loggers _ h
    exact (key s w1 u w4 hw1 hw4).2.1 hn h
  · intro r o' w' h
    unfold findMin at h
    obtain ⟨s, w1, hw1, h⟩ := M.bind_eq_ok.1 h
    obtain ⟨u, w4, hw4, h⟩ := M.bind_eq_ok.1 h
    exact (key s w1 u w4 hw1 hw4).2.2 r o' w' h

end Verif.PSO
