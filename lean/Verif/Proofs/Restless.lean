import Verif.Spec.Restless
import Verif.Proofs.Settle

/-!
# The mean square of a velocity
-/

namespace Verif.Spec

open Verif PSO

theorem realMean_ge {ns : List Nat} (hp : 0 < ns.prod) {V : List Nat → ℝ} {K : ℝ} (h : ∀ t, K ≤ V t) : K ≤ realMean ns V := by
  unfold realMean
  have hl : (0 : ℝ) < (tapes ns).length := by
    rw [length_tapes]
    exact_mod_cast hp
  rw [le_div_iff₀ hl]
  generalize tapes ns = l
  induction l with
  | nil => simp
  | cons t l ih =>
    rw [List.length_cons, List.map_cons, List.sum_cons]
    push_cast
    linarith [h t]

/-- The mean squares of the velocities that the calculator proposes are at least `K k j`. -/
def Shakes (vc : Swarm ℝ → Particle ℝ → M (List Nat) (List ℝ)) (ns : List Nat) (N d : Nat) (B : Nat → List ℝ) (c : F64) (g : Particle ℝ)
    (K : Nat → Nat → ℝ) : Prop :=
  ∀ s k p, k < N → s.best = some g → Plain d (B k) c p → ∃ V, Uses (vc s p) ns V ∧ (∀ t, (V t).length = d) ∧
    ∀ j < d, K k j ≤ realMean ns (fun t => (V t).getD j 0 ^ 2)

section

variable {vc : Swarm ℝ → Particle ℝ → M (List Nat) (List ℝ)} {ns : List Nat} {N d : Nat} {B : Nat → List ℝ} {c : F64} {g : Particle ℝ}
  {K : Nat → Nat → ℝ} {cs : Comps (List Nat) ℝ}

theorem move_square (hf : cs.goal = fun _ => pure c) (h1 : cs.postVel = []) (h2 : cs.postMove = []) (hp : Shakes cs.velCalc ns N d B c g K)
    {it : Nat} {s : Swarm ℝ} (hs : Level N d B c g it s) {i : Nat} (hi : i < N) :
    ∃ U : List Nat → Swarm ℝ, UsesW (moveParticle cs s i) ns U ∧ (∀ t, Level N d B c g it (U t)) ∧
      (∀ j < d, K i j ≤ realMean ns (fun t => velOf (U t) i j ^ 2)) ∧
      ∀ t k j, k ≠ i → velOf (U t) k j = velOf s k j := by
  obtain ⟨p, hpi⟩ : ∃ p, s.particles[i]? = some p := ⟨_, List.getElem?_eq_getElem (by rw [hs.size]; exact hi)⟩
  obtain ⟨hpl, hval⟩ := hs.plain i p hpi
  obtain ⟨V, hV, hl, hm⟩ := hp s i p hi hs.best hpl
  have hi' : i < s.particles.length := by rw [hs.size]; exact hi
  refine ⟨fun t => { s with particles := s.particles.set i ((p.setVelocity (V t)).moveTo (List.zipWith (· + ·) p.coordinates (V t)) c) },
    ?_, ?_, ?_, ?_⟩
  · unfold moveParticle
    refine UsesW.after (a := p) ?_ ?_
    · intro ds rest tr hd
      cases hd
      exact ⟨tr, M.index_eq_ok.2 ⟨hpi, rfl⟩⟩
    refine (UsesW.lift hV).then (f := fun v => { s with particles := s.particles.set i ((p.setVelocity v).moveTo (List.zipWith (· + ·) p.coordinates v) c) }) ?_
    intro v
    rw [h1, h2, hf]
    refine UsesW.after (UsesW.lift (Uses.pure v)) ?_
    refine UsesW.after (UsesW.emit _) ?_
    refine UsesW.after (UsesW.lift (Uses.pure _)) ?_
    refine UsesW.after (UsesW.emit _) ?_
    refine UsesW.after (UsesW.lift (Uses.pure c)) ?_
    refine UsesW.after (UsesW.emit _) ?_
    exact UsesW.pure _
  · intro t
    refine ⟨by simp [hs.size], ?_, hs.best, hs.bestValue, hs.worst, hs.iteration⟩
    intro k q hq
    simp only [List.getElem?_set] at hq
    split at hq
    · rename_i hk
      subst hk
      simp only [Option.some.injEq] at hq
      subst hq
      refine ⟨(hpl.move (hl t)).1, ?_⟩
      unfold Particle.moveTo Particle.setVelocity
      simp [hpl.bestValue, hpl.worstValue, compareFloats_self]
    · exact hs.plain k q hq
  · intro j hj
    refine (hm j hj).trans (le_of_eq (realMean_congr fun t _ => ?_))
    have := (hpl.move (hl t)).2
    simp only [velOf, List.getElem?_set_self hi', Option.map_some, Option.getD_some, this.1]
  · intro t k j hk
    simp only [velOf, List.getElem?_set_ne (Ne.symm hk)]

theorem moves_square (hq : 0 < ns.prod) (hf : cs.goal = fun _ => pure c) (h1 : cs.postVel = []) (h2 : cs.postMove = [])
    (hp : Shakes cs.velCalc ns N d B c g K) (it : Nat) : ∀ (l : List Nat), l.Nodup → (∀ i ∈ l, i < N) → ∀ s, Level N d B c g it s →
    ∃ U, UsesW (M.foldL (moveParticle cs) s l) (List.replicate l.length ns).flatten U ∧ (∀ t, Level N d B c g it (U t)) ∧
      0 < (List.replicate l.length ns).flatten.prod ∧
      ∀ k j, j < d → (k ∈ l → K k j ≤ realMean (List.replicate l.length ns).flatten (fun t => velOf (U t) k j ^ 2)) ∧
        (k ∉ l → ∀ t, velOf (U t) k j = velOf s k j) := by
  intro l
  induction l with
  | nil =>
    intro _ _ s hs
    exact ⟨fun _ => s, UsesW.pure s, fun _ => hs, by simp, fun k j _ => ⟨fun h => by simp at h, fun _ _ => rfl⟩⟩
  | cons i l ih =>
    intro hnd hlt s hs
    obtain ⟨hil, hnd⟩ := List.nodup_cons.1 hnd
    obtain ⟨U1, hU1, hL1, hown, hother⟩ := move_square hf h1 h2 hp hs (hlt i (by simp))
    choose U hU hL hpos hmean using fun t => ih hnd (fun i hi => hlt i (by simp [hi])) (U1 t) (hL1 t)
    rw [List.length_cons, List.replicate_succ, List.flatten_cons]
    refine ⟨fun t => U (t.take ns.length) (t.drop ns.length), hU1.bind (k := fun b => M.foldL (moveParticle cs) b l) hU, fun t => hL _ _, ?_, ?_⟩
    · rw [List.prod_append]
      exact Nat.mul_pos hq (hpos [])
    · intro k j hj
      constructor
      · intro hk
        rw [realMean_append ns _ (fun x y => velOf (U x y) k j ^ 2)]
        by_cases hki : k = i
        · subst hki
          refine (hown j hj).trans (le_of_eq (realMean_congr fun t _ => ?_))
          rw [realMean_congr (W := fun _ => velOf (U1 t) k j ^ 2) (fun y _ => by rw [(hmean t k j hj).2 hil y]), realMean_const (hpos [])]
        · exact realMean_ge hq fun t => (hmean t k j hj).1 (by simpa [hki] using hk)
      · intro hk t
        simp only [List.mem_cons, not_or] at hk
        rw [(hmean _ k j hj).2 hk.2, hother _ k j hk.1]

theorem step_square (hq : 0 < ns.prod) (hf : cs.goal = fun _ => pure c) (h1 : cs.postVel = []) (h2 : cs.postMove = []) (h3 : cs.loggers = [])
    (hp : Shakes cs.velCalc ns N d B c g K) {it : Nat} {s : Swarm ℝ} (hs : Level N d B c g it s) :
    ∃ U, UsesW (step cs s) (List.replicate N ns).flatten U ∧ (∀ t, Level N d B c g (it + 1) (U t)) ∧ 0 < (List.replicate N ns).flatten.prod ∧
      ∀ k j, k < N → j < d → K k j ≤ realMean (List.replicate N ns).flatten (fun t => velOf (U t) k j ^ 2) := by
  obtain ⟨U, hU, hL, hpos, hm⟩ := moves_square hq hf h1 h2 hp it (List.range s.particles.length) List.nodup_range
    (fun i hi => by rw [← hs.size]; exact List.mem_range.1 hi) s hs
  rw [List.length_range] at hU hpos hm
  have hU' := hU.then (k := fun s => do
    let s := s.updateBest.updateWorst.nextIteration
    World.emit (.generation (agents s) s.state.best (s.worst.map Particle.sol) s.iteration)
    callLoggers .next s.state 0 cs.loggers
    pure s) (f := fun s => s.updateBest.updateWorst.nextIteration) (fun a => by
      rw [h3]
      refine UsesW.after (UsesW.emit _) ?_
      refine UsesW.after (UsesW.pure ()) ?_
      exact UsesW.pure _)
  rw [hs.size] at hU' hpos hm
  refine ⟨fun t => (U t).updateBest.updateWorst.nextIteration, by unfold step; rw [hs.size]; exact hU', fun t => (hL t).update.1, hpos, ?_⟩
  intro k j hk hj
  refine ((hm k j hj).1 (List.mem_range.2 hk)).trans (le_of_eq (realMean_congr fun t _ => ?_))
  simp only [velOf, (hL t).update.2]

theorem loop_square (hq : 0 < ns.prod) (hf : cs.goal = fun _ => pure c) (h1 : cs.postVel = []) (h2 : cs.postMove = []) (h3 : cs.loggers = [])
    {T : Nat} (h4 : cs.stop = Stop.maxIterations T) (hp : Shakes cs.velCalc ns N d B c g K) : ∀ r fuel it, it + r = T → r < fuel →
    ∀ s, Level N d B c g it s →
    ∃ U, UsesW (loop cs fuel s) (List.replicate r (List.replicate N ns).flatten).flatten U ∧ (∀ t, Level N d B c g T (U t)) ∧
      (r = 0 → ∀ t, U t = s) ∧
      ∀ k j, k < N → j < d → r ≠ 0 → K k j ≤ realMean (List.replicate r (List.replicate N ns).flatten).flatten (fun t => velOf (U t) k j ^ 2) := by
  intro r
  induction r with
  | zero =>
    intro fuel it hT hfu s hs
    obtain _ | fuel := fuel
    · omega
    obtain rfl : it = T := by omega
    refine ⟨fun _ => s, ?_, fun _ => hs, fun _ _ => rfl, fun _ _ _ _ h => absurd rfl h⟩
    unfold loop
    rw [h4]
    refine UsesW.after (a := true) (UsesW.lift ?_) ?_
    · have : (Stop.maxIterations it s.state : M (List Nat) Bool) = pure true := by
        unfold Stop.maxIterations
        have : s.state.iteration = it := hs.iteration
        rw [this]
        simp
      rw [this]
      exact Uses.pure _
    refine UsesW.after (UsesW.emit _) ?_
    exact UsesW.pure s
  | succ r ih =>
    intro fuel it hT hfu s hs
    obtain _ | fuel := fuel
    · omega
    obtain ⟨U1, hU1, hL1, hpos, hm1⟩ := step_square hq hf h1 h2 h3 hp hs
    choose U hU hL h0 hm using fun t => ih fuel (it + 1) (by omega) (by omega) (U1 t) (hL1 t)
    rw [List.replicate_succ, List.flatten_cons]
    refine ⟨fun t => U (t.take (List.replicate N ns).flatten.length) (t.drop (List.replicate N ns).flatten.length), ?_, fun t => hL _ _,
      fun h => by omega, ?_⟩
    · unfold loop
      rw [h4]
      refine UsesW.after (a := false) (UsesW.lift ?_) ?_
      · have : (Stop.maxIterations T s.state : M (List Nat) Bool) = pure false := by
          unfold Stop.maxIterations
          have : s.state.iteration = it := hs.iteration
          rw [this, decide_eq_false (by omega)]
        rw [this]
        exact Uses.pure _
      refine UsesW.after (UsesW.emit _) ?_
      exact hU1.bind (k := fun s => loop cs fuel s) hU
    · intro k j hk hj _
      rw [realMean_append _ _ (fun x y => velOf (U x y) k j ^ 2)]
      by_cases hr : r = 0
      · refine (hm1 k j hk hj).trans (le_of_eq (realMean_congr fun t _ => ?_))
        subst hr
        rw [List.replicate_zero, List.flatten_nil, realMean_nil, h0 t rfl]
      · exact realMean_ge hpos fun t => hm t k j hk hj hr

end

/-- The mean squares of the velocities of a swarm over flat ground -/
theorem find_square {vc : Swarm ℝ → Particle ℝ → M (List Nat) (List ℝ)} {m k d : Nat} (hm : 0 < m) {c : F64}
    {points velocities : List (List ℝ)} (hs : Start d points velocities) {K : Nat → Nat → ℝ}
    (hp : Shakes vc (List.replicate k m) points.length d (fun k => points.getD k []) c (starter c points velocities 0) K)
    {T fuel n j : Nat} (hT0 : T ≠ 0) (hT : T < fuel) (hn : n < points.length) (hj : j < d) :
    SquareSpeed (List.replicate (T * (points.length * k)) m) (flatSwarm c points velocities vc T) fuel n j (K n j) := by
  have hq : 0 < (List.replicate k m).prod := by rw [List.prod_replicate]; exact Nat.pow_pos hm
  obtain ⟨s, h1, hL, hget⟩ := renew_level (c := c) (vc := vc) (T := T) hs
  obtain ⟨U, hU, hUL, -, hUm⟩ := loop_square (cs := (flatSwarm c points velocities vc T).comps) hq rfl rfl rfl rfl (T := T) rfl hp T fuel 0
    (by omega) hT s hL
  rw [List.flatten_replicate_replicate, List.flatten_replicate_replicate] at hU hUm
  have hfin : UsesW (findMin fuel (flatSwarm c points velocities vc T)) (List.replicate (T * (points.length * k)) m)
      (fun t => ((U t).best.map Particle.sol, ⟨(flatSwarm c points velocities vc T).comps, U t⟩)) := by
    unfold findMin
    refine UsesW.after h1 ?_
    refine UsesW.after (UsesW.pure ()) ?_
    unfold nextIterations
    refine UsesW.after (UsesW.pure ()) ?_
    refine hU.then (f := fun s => (s.best.map Particle.sol, (⟨(flatSwarm c points velocities vc T).comps, s⟩ : Opt (List Nat) ℝ))) ?_
    intro a
    refine UsesW.after (UsesW.pure ()) ?_
    obtain ⟨ps, b, wst, it⟩ := a
    cases b <;> exact UsesW.pure _
  refine ⟨fun t => velOf (U t) n j, ?_, hUm n j hn hj hT0⟩
  intro draws hd
  obtain ⟨tr, e⟩ := hfin draws [] [] (mem_tapes.1 hd)
  rw [List.append_nil] at e
  have hlt : n < (U draws).particles.length := by rw [(hUL draws).size]; exact hn
  have e2 := List.getElem?_eq_getElem hlt
  refine ⟨_, _, _, _, e, rfl, e2, ?_⟩
  have hv : j < ((U draws).particles[n]).velocity.length := by rw [((hUL draws).plain n _ e2).1.vel]; exact hj
  rw [List.getElem?_eq_getElem hv]
  simp only [velOf, e2, Option.map_some, Option.getD_some, getD_below hv]

end Verif.Spec
