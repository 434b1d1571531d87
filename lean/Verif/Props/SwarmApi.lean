import Verif.Props.SwarmRun
import Verif.Proofs.SwarmFuel

/-!
# C24, C25, C26, C31, C49, C68, C69 for the particle swarm optimizer
-/

set_option linter.unusedSectionVars false

namespace Verif.Props.Swarm

open Verif Spec Spec.Swarm PSO

variable {σ α : Type} [FloatT α]

/-! ## C24 -/

theorem maxIterations_bounding (n : Nat) : Bounding n (Stop.maxIterations n : AlgState (List α) → M σ Bool) := by
  intro s w b w' hle h
  rw [← (M.pure_eq_ok.1 h).1]
  exact decide_eq_true hle

/-- C24 (swarm): with `MaxIterations(n)` a `find_min` that returns has completed exactly `n` iterations, numbered
1 to `n`. -/
theorem C24_swarm_findMin (n : Nat) (o o' : Opt σ α) (hstop : o.comps.stop = Stop.maxIterations n)
    (w w' : World σ (List α)) (fuel : Nat) (r : Option (Solution (List α)))
    (hr : findMin fuel o w = .ok ((r, o'), w')) :
    o'.swarm.iteration = n ∧ ∃ ext, w'.trace = w.trace ++ ext ∧ generationsOf ext = List.range' 1 n := by
  obtain ⟨k, sts, ext, p0, wb, -, ht, -, -, hp0, hit, -, -, -, hg, -, -, w1, w2, s', htu, hend⟩ := findMin_spec hr
  rw [hstop] at hend
  have hn : n ≤ o'.swarm.iteration := of_decide_eq_true (M.pure_eq_ok.1 hend).1
  have hm := turns_bounded (hstop ▸ maxIterations_bounding n) k _ _ _ _ htu
  have hkn : k = n := by omega
  exact ⟨by omega, ext, ht, hkn ▸ hg⟩

/-- C24 (swarm): `next_iterations` with `MaxIterations(n)` continues to iteration `n`, and does nothing if it is already
reached: no iteration and no goal call. -/
theorem C24_swarm_nextIterations (n : Nat) (o o' : Opt σ α) (hstop : o.comps.stop = Stop.maxIterations n)
    (w w' : World σ (List α)) (fuel : Nat) (r : Option (Solution (List α)))
    (hr : nextIterations fuel o w = .ok ((r, o'), w')) :
    o'.swarm.iteration = max n o.swarm.iteration ∧
    (∃ ext, w'.trace = w.trace ++ ext ∧
      generationsOf ext = List.range' (o.swarm.iteration + 1) (n - o.swarm.iteration)) ∧
    (n ≤ o.swarm.iteration → o' = o ∧ ∃ ext, w'.trace = w.trace ++ ext ∧ goalsOf ext = []) := by
  obtain ⟨k, sts, ext, -, ht, -, hit, -, -, -, hg, -, -, w1, w2, s', htu, hend⟩ := nextIterations_spec hr
  rw [hstop] at hend
  have hn : n ≤ o'.swarm.iteration := of_decide_eq_true (M.pure_eq_ok.1 hend).1
  have hm := turns_bounded (hstop ▸ maxIterations_bounding n) k _ _ _ _ htu
  have hkn : k = n - o.swarm.iteration := by omega
  refine ⟨by omega, ⟨ext, ht, hkn ▸ hg⟩, fun hle => ?_⟩
  obtain ⟨p2, w3, w4, h4, h5, h6, -, rfl⟩ := nextIterations_ok.1 hr
  obtain ⟨k', w5, s', -, hk', hend', rfl⟩ := loop_turns h5
  have h0 : k' = 0 := by
    have := turns_bounded (hstop ▸ maxIterations_bounding n) k' _ _ _ _ hk'
    omega
  subst h0
  obtain ⟨rfl, rfl⟩ := M.pure_eq_ok.1 hk'
  refine ⟨rfl, GA.logBlock .resume o.swarm.state 0 o.comps.loggers.length ++ [.check o.swarm.state true] ++
    GA.logBlock .finish o.swarm.state 0 o.comps.loggers.length, ?_, ?_⟩
  · rw [GA.callLoggers_trace h6]
    simp only
    rw [GA.callLoggers_trace h4]
    simp
  · simp [goalsOf, GA.logBlock]

/-- C24 (swarm): with `MaxIterations(n)` the outcome of `find_min` is the same for every bound larger than `n` on the number of
turns of its loop, so the unbounded loop of the program ends within `n` turns. -/
theorem C24_swarm_terminates (n : Nat) (o : Opt σ α) (hstop : o.comps.stop = Stop.maxIterations n)
    (w : World σ (List α)) (fuel : Nat) (hf : n < fuel) :
    findMin fuel o w = findMin (n + 1) o w ∧ (PSO.NoFuel o.comps → findMin fuel o w ≠ .error .fuel) :=
  have hb : Bounding n o.comps.stop := hstop ▸ maxIterations_bounding n
  ⟨findMin_fuel hb fuel (n + 1) w hf (by omega), fun hc => findMin_noFuel hb hc fuel w hf⟩

/-- C24 (swarm): likewise for `next_iterations`, which ends within the turns that are left. -/
theorem C24_swarm_next_terminates (n : Nat) (o : Opt σ α) (hstop : o.comps.stop = Stop.maxIterations n)
    (w : World σ (List α)) (fuel : Nat) (hf : n - o.swarm.iteration < fuel) :
    nextIterations fuel o w = nextIterations (n - o.swarm.iteration + 1) o w ∧
    (PSO.NoFuel o.comps → nextIterations fuel o w ≠ .error .fuel) :=
  have hb : Bounding n o.comps.stop := hstop ▸ maxIterations_bounding n
  ⟨nextIterations_fuel hb fuel (n - o.swarm.iteration + 1) w (by omega) (by omega) (by omega) (by omega),
    fun hc => nextIterations_noFuel hb hc fuel w (by omega) (by omega)⟩

example : SwarmDemo.opt.comps.stop = Stop.maxIterations 2 ∧
    ∃ r w', findMin 3 SwarmDemo.opt SwarmDemo.world = .ok (r, w') := by
  obtain ⟨r, w', h, -⟩ := M.okAnd_iff.1 SwarmDemo.runs
  exact ⟨rfl, r, w', h⟩

/-! ## C25 -/

/-- C25 (swarm): after any history, `find_min` behaves as on a freshly built optimizer with the components that
are now plugged in. -/
theorem C25_swarm (o o' : Opt σ α) (ks : List (Call σ α)) (rs : List (Ret α)) (w w' : World σ (List α))
    (_hr : run o ks w = .ok ((rs, o'), w')) (fuel : Nat) :
    findMin fuel o' w' = findMin fuel ⟨o'.comps, ⟨[], none, none, 0⟩⟩ w' := rfl

/-- C25 (swarm), for arbitrary states. -/
theorem C25_swarm_any (o1 o2 : Opt σ α) (h : o1.comps = o2.comps) (fuel : Nat) (w : World σ (List α)) :
    findMin fuel o1 w = findMin fuel o2 w := by
  obtain ⟨c1, p1⟩ := o1
  obtain ⟨c2, p2⟩ := o2
  cases h
  rfl

/-! ## C26 -/

/-- C26 (swarm): `find_min` returns the best solution of the final state, which is the one every logger was given by
`finish`; with at least one particle there always is one, even without any iteration. -/
theorem C26_swarm_findMin (o o' : Opt σ α) (fuel : Nat) (w w' : World σ (List α))
    (r : Option (Solution (List α))) (hr : findMin fuel o w = .ok ((r, o'), w')) :
    r = o'.swarm.state.best ∧
    (∃ ext pre, w'.trace = w.trace ++ ext ∧ logsOf ext = pre ++ block o.comps.loggers.length .finish o'.swarm.state) ∧
    (r = none ↔ o'.swarm.particles = []) := by
  obtain ⟨k, sts, ext, p0, wb, -, ht, -, hbeg, -, hit, hrr, hlg, -, -, -, -, w1, w2, s', htu, -⟩ := findMin_spec hr
  refine ⟨hrr, ⟨ext, _, ht, hlg⟩, ?_⟩
  have key : ∀ (k : Nat) (p p' : PSO.Swarm α) (w w' : World σ (List α)), turns o.comps k p w = .ok (p', w') →
      (p.best = none ↔ p.particles = []) → (p'.best = none ↔ p'.particles = []) := by
    intro k
    induction k with
    | zero =>
      intro p p' w w' h hp
      obtain ⟨rfl, rfl⟩ := M.pure_eq_ok.1 h
      exact hp
    | succ k ih =>
      intro p p' w w' h hp
      obtain ⟨s', -, p1, w1, h1, h2⟩ := turns_succ_ok.1 h
      refine ih p1 p' w1 w' h2 ?_
      obtain ⟨w2, h3, -⟩ := step_ok.1 h1
      obtain ⟨evs, s1, hm, rfl, -⟩ := core_ok h3
      obtain ⟨hsb, -, -, hsl⟩ := hm.same
      have e1 : s1.updateBest.updateWorst.nextIteration.best = s1.updateBest.best := updateWorst_best _
      have e2 : s1.updateBest.updateWorst.nextIteration.particles = s1.particles :=
        (updateWorst_particles _).trans (updateBest_particles _)
      rw [e1, e2]
      have hnil : s1.particles = [] ↔ p.particles = [] := by
        rw [← List.length_eq_zero_iff, hsl, List.length_eq_zero_iff]
      unfold Swarm.updateBest
      split
      · rename_i hnone
        have := findBest_spec.1.1 hnone
        rw [hsb, hp, hnil]
      · rename_i nb hnb
        have hne : s1.particles ≠ [] := by
          intro h; rw [h] at hnb; simp [findBest] at hnb
        split
        · simp [hne]
        · rename_i ob hob
          split
          · simp [hne]
          · simp [hne, hob]
  rw [hrr]
  have h0 : p0.best = none ↔ p0.particles = [] := by
    rw [(begin_table hbeg).2.1]
    exact findBest_spec.1
  rw [← key k p0 o'.swarm w1 w2 htu h0]
  simp [Swarm.state]

/-- C26 (swarm), for `next_iterations`. If it does no iteration it returns the best known before. -/
theorem C26_swarm_nextIterations (o o' : Opt σ α) (fuel : Nat) (w w' : World σ (List α))
    (r : Option (Solution (List α))) (hr : nextIterations fuel o w = .ok ((r, o'), w')) :
    r = o'.swarm.state.best ∧
    (∃ ext pre, w'.trace = w.trace ++ ext ∧ logsOf ext = pre ++ block o.comps.loggers.length .finish o'.swarm.state) ∧
    (o'.swarm.iteration = o.swarm.iteration → r = o.swarm.state.best) := by
  obtain ⟨k, sts, ext, -, ht, -, hit, hrr, hlg, hsi, -, -, hlast, -⟩ := nextIterations_spec hr
  refine ⟨hrr, ⟨ext, _, ht, hlg⟩, ?_⟩
  intro h
  have hk : k = 0 := by omega
  subst hk
  have : sts = [] := by
    have := congrArg List.length hsi
    simpa using this
  subst this
  simp only [List.getLast?_singleton, Option.some.injEq] at hlast
  rw [hrr, ← hlast]

/-- C26 (swarm): a run with `MaxIterations(0)` returns the best of the initial swarm. -/
example : M.okAnd (run SwarmDemo.opt [.setStopChecker (Stop.maxIterations 0), .findMin 1] SwarmDemo.world)
    (fun r _ => r.1.map (fun x => x.map Option.isSome) == [none, some true]) = true := by decide +kernel

/-! ## C31 -/

/-- C31 (swarm, `find_min`): the complete list of logger calls. `sts` are the states after each iteration, `s0` is the
state of the initial swarm. -/
theorem C31_swarm_findMin (o o' : Opt σ α) (fuel : Nat) (w w' : World σ (List α))
    (r : Option (Solution (List α))) (hr : findMin fuel o w = .ok ((r, o'), w')) :
    ∃ ext s0 sts, w'.trace = w.trace ++ ext ∧ s0.iteration = 0 ∧
      logsOf ext = block o.comps.loggers.length .start s0 ++ block o.comps.loggers.length .resume s0 ++
        sts.flatMap (block o.comps.loggers.length .next) ++ block o.comps.loggers.length .finish o'.swarm.state ∧
      sts.map AlgState.iteration = List.range' 1 o'.swarm.iteration ∧
      generationsOf ext = List.range' 1 o'.swarm.iteration ∧
      (s0 :: sts).getLast? = some o'.swarm.state := by
  obtain ⟨k, sts, ext, p0, wb, -, ht, -, -, hp0, rfl, hrr, hlg, hsi, hg, -, hlast, -⟩ := findMin_spec hr
  exact ⟨ext, p0.state, sts, ht, hp0, hlg, hsi, hg, hlast⟩

/-- C31 (swarm, `next_iterations`): the complete list of logger calls. -/
theorem C31_swarm_nextIterations (o o' : Opt σ α) (fuel : Nat) (w w' : World σ (List α))
    (r : Option (Solution (List α))) (hr : nextIterations fuel o w = .ok ((r, o'), w')) :
    ∃ ext sts, w'.trace = w.trace ++ ext ∧
      logsOf ext = block o.comps.loggers.length .resume o.swarm.state ++
        sts.flatMap (block o.comps.loggers.length .next) ++ block o.comps.loggers.length .finish o'.swarm.state ∧
      sts.map AlgState.iteration = List.range' (o.swarm.iteration + 1) (o'.swarm.iteration - o.swarm.iteration) ∧
      generationsOf ext = List.range' (o.swarm.iteration + 1) (o'.swarm.iteration - o.swarm.iteration) ∧
      (o.swarm.state :: sts).getLast? = some o'.swarm.state := by
  obtain ⟨k, sts, ext, -, ht, -, hit, hrr, hlg, hsi, hg, -, hlast, -⟩ := nextIterations_spec hr
  have : k = o'.swarm.iteration - o.swarm.iteration := by omega
  subst this
  exact ⟨ext, sts, ht, hlg, hsi, hg, hlast⟩

/-- Two loggers and two iterations: ten calls, in the order required. -/
example : M.okAnd (findMin 3 SwarmDemo.opt SwarmDemo.world) (fun _ w =>
    (logsOf w.trace).map (fun l => (l.1, l.2.1, l.2.2.iteration)) ==
      [(0, .start, 0), (1, .start, 0), (0, .resume, 0), (1, .resume, 0), (0, .next, 1), (1, .next, 1),
        (0, .next, 2), (1, .next, 2), (0, .finish, 2), (1, .finish, 2)]) = true := by decide +kernel

/-! ## C68 -/

/-- The setters among the public calls. -/
def IsSetter : Call σ α → Prop
  | .findMin _ => False
  | .nextIterations _ => False
  | _ => True

/-- C68 (swarm): a setter only replaces its component. It touches neither the swarm (with its best, worst and
iteration number) nor the world, and the rest of the history runs on the optimizer with the new component. -/
theorem C68_swarm (o : Opt σ α) (k : Call σ α) (hk : IsSetter k) (ks : List (Call σ α)) (w : World σ (List α)) :
    call o k w = .ok ((none, ⟨setComps o.comps k, o.swarm⟩), w) ∧
    run o (k :: ks) w = (do
      let (rs, o') ← run ⟨setComps o.comps k, o.swarm⟩ ks
      pure (none :: rs, o') : M (World σ (List α)) _) w := by
  cases k <;> first | exact absurd hk id | exact ⟨rfl, rfl⟩

/-! ## C49 -/

theorem turns_empty {c : Comps σ α} : ∀ {k : Nat} {p p' : PSO.Swarm α} {w w' : World σ (List α)},
    turns c k p w = .ok (p', w') → p.particles = [] → p.best = none →
      p'.particles = [] ∧ p'.best = none ∧ ∃ ext, w'.trace = w.trace ++ ext ∧ goalsOf ext = [] := by
  intro k p p' w w' h hp hb
  obtain ⟨hl, ext, ht, hg⟩ := turns_goals h
  rw [hp] at hl hg
  refine ⟨List.length_eq_zero_iff.1 hl, ?_, ext, ht, List.length_eq_zero_iff.1 (by simpa using hg)⟩
  have key : ∀ (k : Nat) (p p' : PSO.Swarm α) (w w' : World σ (List α)), turns c k p w = .ok (p', w') →
      p.particles = [] → p.best = none → p'.best = none := by
    intro k
    induction k with
    | zero =>
      intro p p' w w' h _ hp
      obtain ⟨rfl, rfl⟩ := M.pure_eq_ok.1 h
      exact hp
    | succ k ih =>
      intro p p' w w' h hp hb
      obtain ⟨s', -, p1, w1, h1, h2⟩ := turns_succ_ok.1 h
      obtain ⟨w2, h3, -⟩ := step_ok.1 h1
      obtain ⟨evs, s1, hm, rfl, -⟩ := core_ok h3
      obtain ⟨hsb, -, -, hsl⟩ := hm.same
      have h0 : s1.particles = [] := by
        rw [hp] at hsl; exact List.length_eq_zero_iff.1 hsl
      have e1 : s1.updateBest.updateWorst.nextIteration.best = s1.updateBest.best := updateWorst_best _
      have e2 : s1.updateBest.updateWorst.nextIteration.particles = s1.particles :=
        (updateWorst_particles _).trans (updateBest_particles _)
      refine ih _ p' w1 w' h2 (by rw [e2, h0]) ?_
      rw [e1]
      unfold Swarm.updateBest
      rw [h0]
      simp only [findBest]
      rw [hsb, hb]
  exact key k p p' w w' h hp hb

/-- C49: if the initializers return no vectors, `find_min` returns `None` and never calls the goal, whatever the other
components and the number of iterations. -/
theorem C49_empty (o o' : Opt σ α) (fuel : Nat) (w w' : World σ (List α)) (r : Option (Solution (List α)))
    (hc : ∀ s xs s', o.comps.coordInit s = .ok (xs, s') → xs = [])
    (hr : findMin fuel o w = .ok ((r, o'), w')) :
    r = none ∧ ∃ ext, w'.trace = w.trace ++ ext ∧ goalsOf ext = [] := by
  obtain ⟨k, sts, ext0, p0, wb, -, -, -, hbeg, -, hit, hrr, hlg, -, -, -, -, w1, w2, s', htu, -⟩ := findMin_spec hr
  obtain ⟨raws, xs, vs, ps, ⟨sa, sb, hraws⟩, -, hlen, hxs, hps, rfl, -⟩ := begin_ok hbeg
  have hraws0 := hc _ _ _ hraws
  subst hraws0
  cases hxs
  simp only [List.zip_nil_left] at hps
  cases hps
  obtain ⟨hp, hb, -⟩ := turns_empty htu rfl rfl
  refine ⟨by rw [hrr]; simp [Swarm.state, hb], ?_⟩
  obtain ⟨ext, ht, hg⟩ := C27_swarm_findMin o o' fuel w w' r hr
  rw [hp] at hg
  exact ⟨ext, ht, List.length_eq_zero_iff.1 (by simpa using hg)⟩

/-- An empty swarm runs through three iterations. -/
example : M.okAnd (PSO.findMin 4 (PSO.new (fun _ => M.fail .user) (Stop.maxIterations 3) (Creation.zeroInit 2 0)
      (Creation.zeroInit 2 0) (Velocity.classic Rng.script Fl.one Fl.one) : PSO.Opt (List Nat) F64) ⟨[], []⟩)
    (fun r w => r.1.isNone && r.2.swarm.iteration == 3 && (goalsOf w.trace).isEmpty) = true := by decide +kernel

/-- C49: if the initializers return different numbers of vectors, `find_min` panics (assertion), and nothing but the
initializers was called before: the outcome does not depend on the goal, the hooks, the loggers, the stop checker or the
velocity calculator. -/
theorem C49_mismatch (o : Opt σ α) (fuel : Nat) (w : World σ (List α)) (xs vs : List (List α)) (s1 s2 : σ)
    (h1 : o.comps.coordInit w.user = .ok (xs, s1)) (h2 : o.comps.velInit s1 = .ok (vs, s2))
    (hne : xs.length ≠ vs.length) :
    findMin fuel o w = .error .assert := by
  refine M.bind_eq_error.2 (.inl ?_)
  refine M.bind_eq_error.2 (.inr ⟨xs, ⟨s1, w.trace⟩, World.lift_eq_ok.2 ⟨h1, rfl⟩, ?_⟩)
  refine M.bind_eq_error.2 (.inr ⟨(), ⟨s1, w.trace ++ [.created xs]⟩, World.emit_eq_ok.2 ⟨rfl, rfl⟩, ?_⟩)
  refine M.bind_eq_error.2 (.inr ⟨vs, ⟨s2, w.trace ++ [.created xs]⟩, World.lift_eq_ok.2 ⟨h2, rfl⟩, ?_⟩)
  refine M.bind_eq_error.2 (.inl ?_)
  unfold M.assert
  rw [if_neg (by simpa using hne)]
  rfl

example : (PSO.findMin 4 (PSO.new (fun _ => M.fail .user) (Stop.maxIterations 3) (Creation.zeroInit 2 1)
      (Creation.zeroInit 2 2) (Velocity.classic Rng.script Fl.one Fl.one) : PSO.Opt (List Nat) F64) ⟨[], []⟩) =
    .error .assert :=
  C49_mismatch _ _ _ _ _ [] [] rfl rfl (by decide)

/-! ## C69 -/

/-- C69: at any point of any history, the next turn of the loop moves the particles one after the other, each exactly
once and in order, as `Spec.Swarm.Move` says, and then updates the best and worst ever seen. While the particles move, the
reported best and worst and the iteration number stay as they were after the previous turn. -/
theorem C69_pipeline (o o1 : Opt σ α) (w w1 w2 : World σ (List α)) (ks : List (Call σ α)) (pt : Point)
    (s' : PSO.Swarm α) (_h0 : Fresh o w) (_hr : runTo o ks pt w = .ok (o1, w1))
    (hs : step o1.comps o1.swarm w1 = .ok (s', w2)) :
    ∃ evs s1, Moves o1.comps (List.range o1.swarm.particles.length) o1.swarm evs s1 ∧
      s1.best = o1.swarm.best ∧ s1.worst = o1.swarm.worst ∧ s1.iteration = o1.swarm.iteration ∧
      s'.particles = s1.particles ∧ s'.iteration = o1.swarm.iteration + 1 ∧
      w2.trace = w1.trace ++ evs ++
        [.generation (agents s') s'.state.best (s'.worst.map Particle.sol) s'.iteration] ++
        (List.range o1.comps.loggers.length).map (fun i => .log i .next s'.state) := by
  obtain ⟨w3, h3, h4⟩ := step_ok.1 hs
  have hit := core_iteration h3
  obtain ⟨evs, s1, hm, rfl, ht⟩ := core_ok h3
  refine ⟨evs, s1, hm, hm.same.1, hm.same.2.1, hm.same.2.2.1,
    (updateWorst_particles _).trans (updateBest_particles _), hit, ?_⟩
  rw [GA.callLoggers_trace h4, ht]
  unfold GA.logBlock
  rw [List.range_eq_range']
  simp

/-- C69: every particle is replaced by exactly one particle, moved from where it was. -/
theorem C69_each (o o1 : Opt σ α) (w w1 w2 : World σ (List α)) (ks : List (Call σ α)) (pt : Point)
    (s' : PSO.Swarm α) (_h0 : Fresh o w) (_hr : runTo o ks pt w = .ok (o1, w1))
    (hs : step o1.comps o1.swarm w1 = .ok (s', w2)) :
    List.Forall₂ (fun p p' => ∃ s1 evs, s1.best = o1.swarm.best ∧ s1.worst = o1.swarm.worst ∧
        s1.iteration = o1.swarm.iteration ∧ Nonempty (Move o1.comps s1 p evs p'))
      o1.swarm.particles s'.particles := by
  obtain ⟨w3, h3, h4⟩ := step_ok.1 hs
  obtain ⟨evs, s1, hm, rfl, ht⟩ := core_ok h3
  have e2 : s1.updateBest.updateWorst.nextIteration.particles = s1.particles :=
    (updateWorst_particles _).trans (updateBest_particles _)
  rw [e2]
  refine hm.all.2.imp ?_
  rintro p p' ⟨s2, evs2, h1, h2, h3, -, -, h4⟩
  exact ⟨s2, evs2, h1, h2, h3, h4⟩

/-- A point of a history at which another turn is possible. -/
example : ∃ o1 w1 s' w2, Fresh SwarmDemo.opt SwarmDemo.world ∧
    runTo SwarmDemo.opt [] (.inFindMin 1) SwarmDemo.world = .ok (o1, w1) ∧
    step o1.comps o1.swarm w1 = .ok (s', w2) := by
  have : M.okAnd ((do
      let o1 ← runTo SwarmDemo.opt [] (.inFindMin 1)
      let s' ← step o1.comps o1.swarm
      pure (o1, s') : M _ _) SwarmDemo.world) (fun _ _ => true) = true := by decide +kernel
  obtain ⟨⟨o1, s'⟩, w2, h, -⟩ := M.okAnd_iff.1 this
  obtain ⟨o2, w1, h1, h⟩ := M.bind_eq_ok.1 h
  obtain ⟨s2, w3, h2, h⟩ := M.bind_eq_ok.1 h
  exact ⟨o2, w1, s2, w3, demo_fresh, h1, h2⟩

end Verif.Props.Swarm
