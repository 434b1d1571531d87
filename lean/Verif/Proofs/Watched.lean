import Verif.Proofs.Swarm
import Verif.Props.Velocity
import Verif.Spec.Dynamics
import Verif.Proofs.Dynamics

/-!
# From a watched particle to the recurrence
-/

namespace Verif.PSO

open Verif Spec Spec.Swarm Velocity Props

variable {σ : Type}

theorem turns_last {α : Type} [FloatT α] {c : Comps σ α} : ∀ {n : Nat} {s s' : Swarm α} {w w' : World σ (List α)},
    turns c (n + 1) s w = .ok (s', w') → ∃ s1 w1 w2, turns c n s w = .ok (s1, w1) ∧ step c s1 w2 = .ok (s', w') := by
  intro n
  induction n with
  | zero =>
    intro s s' w w' h
    obtain ⟨u, h1, p1, w1, h2, h3⟩ := turns_succ_ok.1 h
    obtain ⟨rfl, rfl⟩ := M.pure_eq_ok.1 h3
    exact ⟨s, w, _, rfl, h2⟩
  | succ n ih =>
    intro s s' w w' h
    obtain ⟨u, h1, p1, w1, h2, h3⟩ := turns_succ_ok.1 h
    obtain ⟨s1, w2, w3, h4, h5⟩ := ih h3
    exact ⟨s1, w2, w3, turns_succ_ok.2 ⟨u, h1, p1, w1, h2, h4⟩, h5⟩

/-- A watched call is a sequence of turns from the head of its loop. -/
theorem counts_turns {o : Opt σ ℝ} {w : World σ (List ℝ)} {t0 : Nat} {pt : Nat → Point} (h : Counts t0 pt)
    (hok : ∃ o' w', runTo o [] (pt 0) w = .ok (o', w')) :
    ∃ s0 w0, ∀ t o' w', runTo o [] (pt t) w = .ok (o', w') → turns o.comps (t0 + t) s0 w0 = .ok (o'.swarm, w') := by
  obtain ⟨o1, w1, h1⟩ := hok
  cases h with
  | findMin =>
    have unroll : ∀ t o' w', runTo o [] (.inFindMin (t0 + t)) w = .ok (o', w') →
        ∃ s1 w1, findMinHead o w = .ok (⟨o.comps, s1⟩, w1) ∧ turns o.comps (t0 + t) s1 w1 = .ok (o'.swarm, w') := by
      intro t o' w' h
      unfold runTo run at h
      obtain ⟨ro, w0, h0, h⟩ := M.bind_eq_ok.1 h
      obtain ⟨rfl, rfl⟩ := M.pure_eq_ok.1 h0
      obtain ⟨o2, w2, h2, h⟩ := M.bind_eq_ok.1 h
      obtain ⟨s3, w3, h3, h⟩ := M.bind_eq_ok.1 h
      obtain ⟨rfl, rfl⟩ := M.pure_eq_ok.1 h
      have hc : o2.comps = o.comps := by
        unfold findMinHead at h2
        obtain ⟨_, _, _, h2⟩ := M.bind_eq_ok.1 h2
        obtain ⟨_, _, _, h2⟩ := M.bind_eq_ok.1 h2
        obtain ⟨_, _, _, h2⟩ := M.bind_eq_ok.1 h2
        obtain ⟨rfl, -⟩ := M.pure_eq_ok.1 h2
        rfl
      refine ⟨o2.swarm, w2, ?_, ?_⟩
      · rw [h2, ← hc]
      · rw [← hc]; exact h3
    obtain ⟨s1, w1', e1, -⟩ := unroll 0 _ _ h1
    refine ⟨s1, w1', fun t o' w' h => ?_⟩
    obtain ⟨s2, w2, e2, e3⟩ := unroll t _ _ h
    rw [e1] at e2
    cases e2
    exact e3
  | nextIterations =>
    have unroll : ∀ t o' w', runTo o [] (.inNextIterations (t0 + t)) w = .ok (o', w') →
        ∃ w1, callLoggers .resume o.swarm.state 0 o.comps.loggers w = .ok ((), w1) ∧
          turns o.comps (t0 + t) o.swarm w1 = .ok (o'.swarm, w') := by
      intro t o' w' h
      unfold runTo run at h
      obtain ⟨ro, w0, h0, h⟩ := M.bind_eq_ok.1 h
      obtain ⟨rfl, rfl⟩ := M.pure_eq_ok.1 h0
      obtain ⟨u, w2, h2, h⟩ := M.bind_eq_ok.1 h
      obtain ⟨s3, w3, h3, h⟩ := M.bind_eq_ok.1 h
      obtain ⟨rfl, rfl⟩ := M.pure_eq_ok.1 h
      exact ⟨w2, h2, h3⟩
    obtain ⟨w1', e1, -⟩ := unroll 0 _ _ h1
    refine ⟨o.swarm, w1', fun t o' w' h => ?_⟩
    obtain ⟨w2, e2, e3⟩ := unroll t _ _ h
    rw [e1] at e2
    cases e2
    exact e3

theorem steady_factor {R : Rng σ} {r : ℝ} (hR : Steady R r) {s s' : σ} {us : List F32} (h : Drawn R s us s') :
    ∀ {n : Nat} {q : ℝ}, factor us n = some q → q = r := by
  induction h with
  | nil => intro n q h; simp [factor] at h
  | @cons s u s1 us s' hu _ ih =>
    intro n q h
    cases n with
    | zero =>
      simp only [factor, List.getElem?_cons_zero, Option.map_some, Option.some.injEq] at h
      rw [← h, ← hR s, hu]
    | succ n => exact ih (n := n) (by simpa [factor] using h)

/-- Every particle moves once in a turn, seeing the best particle from before the turn. -/
theorem step_particle {α : Type} [FloatT α] {c : Comps σ α} {s s' : Swarm α} {w w' : World σ (List α)}
    (h : step c s w = .ok (s', w'))
    {n : Nat} {p p' : Particle α} (hp : s.particles[n]? = some p) (hp' : s'.particles[n]? = some p') :
    ∃ s1 evs, s1.best = s.best ∧ Nonempty (Move c s1 p evs p') := by
  obtain ⟨w1, h1, -⟩ := step_ok.1 h
  obtain ⟨evs, s1, hm, rfl, -⟩ := core_ok h1
  have e : s1.updateBest.updateWorst.nextIteration.particles = s1.particles := by
    show s1.updateBest.updateWorst.particles = _
    rw [updateWorst_particles, updateBest_particles]
  rw [e] at hp'
  obtain ⟨l1, g1⟩ := List.getElem?_eq_some_iff.1 hp
  obtain ⟨l2, g2⟩ := List.getElem?_eq_some_iff.1 hp'
  have := hm.all.2.get l1 l2
  simp only [List.get_eq_getElem, g1, g2] at this
  obtain ⟨s2, ev, hb, -, -, -, -, hmv⟩ := this
  exact ⟨s2, ev, hb, hmv⟩

/-- A watched particle obeys the formula of its velocity calculator. -/
theorem watched_formula {R : Rng σ} {r : ℝ} (hR : Steady R r) {form : ℝ → ℝ → ℝ → ℝ → ℝ → ℝ → ℝ}
    {o : Opt σ ℝ} (hb : Bare o.comps)
    (hv : ∀ S p s s' raw, o.comps.velCalc S p s = .ok (raw, s') → ∃ q s1, S.best = some q ∧ TwoTerm R form p q s1 raw s')
    {w : World σ (List ℝ)} {n i : Nat} {x v : Nat → ℝ} {b g : ℝ} (hw : Watched o w n i x v b g) (t : Nat) :
    v (t + 1) = form r r (v t) b g (x t) ∧ x (t + 1) = x t + v (t + 1) := by
  obtain ⟨t0, pt, hpt, hw⟩ := hw
  have hw0 := hw 0
  obtain ⟨o1, w1, p1, q1, r1, -⟩ := hw0
  obtain ⟨s0, w0, hs⟩ := counts_turns hpt ⟨o1, w1, r1⟩
  obtain ⟨oa, wa, pa, qa, ra, a1, a2, a3, a4, a5, a6⟩ := hw t
  obtain ⟨ob, wb, pb, qb, rb, b1, b2, b3, b4, b5, b6⟩ := hw (t + 1)
  have ta := hs _ _ _ ra
  have tb := hs _ _ _ rb
  rw [← Nat.add_assoc] at tb
  obtain ⟨s1, w2, w3, e1, e2⟩ := turns_last tb
  rw [ta] at e1
  cases e1
  obtain ⟨S, evs, hS, ⟨m⟩⟩ := step_particle e2 a1 b1
  obtain ⟨sx, sy, hraw⟩ := m.velocity_ok
  obtain ⟨q, s4, hq, hl, us, hd, -, hform⟩ := hv _ _ _ _ _ hraw
  rw [hS, a5] at hq
  cases hq
  have hc := m.corrected
  rw [hb.1] at hc
  generalize hraw' : m.raw = raw at hc hl hform
  cases hc
  have hmv := m.moved
  rw [hb.2] at hmv
  generalize hz : List.zipWith FloatT.add pa.coordinates pb.velocity = z at hmv
  cases hmv
  obtain ⟨li, gi⟩ := List.getElem?_eq_some_iff.1 b3
  obtain ⟨rP, rG, v', b', g', x', f1, f2, c1, c2, c3, c4, c5⟩ := hform i li
  rw [a3] at c1; rw [a4] at c2; rw [a6] at c3; rw [a2] at c4
  cases c1; cases c2; cases c3; cases c4
  rw [steady_factor hR hd f1, steady_factor hR hd f2] at c5
  refine ⟨by rw [← gi, c5], ?_⟩
  rw [← hz, List.getElem?_zipWith, a2, b3] at b2
  simp only [Option.some.injEq] at b2
  rw [← b2]
  rfl

end Verif.PSO
