import Verif.Spec.Swarm
import Verif.Proofs.GeneticTurns

/-!
# The turns of the swarm optimizer
-/

set_option linter.unusedSectionVars false

namespace Verif.PSO

open Verif Spec Spec.Swarm
open Verif.GA (logBlock callLoggers_trace)

variable {σ α : Type} [FloatT α]

omit [FloatT α] in
theorem hooks_ok : ∀ {hs : List (List α → M σ (List α))} {x y : List α} {s s' : σ},
    hooks hs x s = .ok (y, s') → Hooked hs x y := by
  intro hs
  induction hs with
  | nil => intro x y s s' h; obtain ⟨rfl, -⟩ := M.foldL_nil_ok.1 h; exact .nil
  | cons f hs ih =>
    intro x y s s' h
    obtain ⟨b, s1, h1, h2⟩ := M.foldL_cons_ok.1 h
    exact .cons ⟨_, _, h1⟩ (ih h2)

theorem moveParticle_ok {c : Comps σ α} {s s' : Swarm α} {n : Nat} {w w' : World σ (List α)}
    (h : moveParticle c s n w = .ok (s', w')) : ∃ p evs p', s.particles[n]? = some p ∧
      Nonempty (Move c s p evs p') ∧ s' = { s with particles := s.particles.set n p' } ∧ w'.trace = w.trace ++ evs := by
  unfold moveParticle at h
  obtain ⟨p, w0, h0, h⟩ := M.bind_eq_ok.1 h
  obtain ⟨hp, rfl⟩ := M.index_eq_ok.1 h0
  obtain ⟨raw, w1, h1, h⟩ := M.bind_eq_ok.1 h
  obtain ⟨v, w2, h2, h⟩ := M.bind_eq_ok.1 h
  obtain ⟨u, w3, h3, h⟩ := M.bind_eq_ok.1 h
  obtain ⟨x, w4, h4, h⟩ := M.bind_eq_ok.1 h
  obtain ⟨u', w5, h5, h⟩ := M.bind_eq_ok.1 h
  obtain ⟨val, w6, h6, h⟩ := M.bind_eq_ok.1 h
  obtain ⟨u'', w7, h7, h⟩ := M.bind_eq_ok.1 h
  obtain ⟨rfl, rfl⟩ := M.pure_eq_ok.1 h
  have hv : ((p.setVelocity v).moveTo x val).velocity = v := by
    unfold Particle.moveTo Particle.setVelocity; dsimp only; (repeat' split) <;> rfl
  have hx : ((p.setVelocity v).moveTo x val).coordinates = x := by
    unfold Particle.moveTo Particle.setVelocity; dsimp only; (repeat' split) <;> rfl
  have hval : ((p.setVelocity v).moveTo x val).value = val := by
    unfold Particle.moveTo Particle.setVelocity; dsimp only; (repeat' split) <;> rfl
  refine ⟨p, _, _, hp, ⟨⟨raw, ⟨_, _, (World.lift_eq_ok.1 h1).1⟩, ?_, ?_, ?_, ?_, ?_, rfl⟩⟩, rfl, ?_⟩
  · rw [hv]; exact hooks_ok (World.lift_eq_ok.1 h2).1
  · rw [hv, hx]; exact hooks_ok (World.lift_eq_ok.1 h4).1
  · rw [hx, hval]; exact ⟨_, _, (World.lift_eq_ok.1 h6).1⟩
  · rw [hx, hval]
    unfold Particle.moveTo Particle.setVelocity; dsimp only
    by_cases hb : compareFloats val p.bestValue = .lt
    · rw [if_pos hb]
      have : (compareFloats val p.bestValue == .lt) = true := by simpa using hb
      rw [this]; simp only [if_true]; split <;> rfl
    · rw [if_neg hb]
      have : (compareFloats val p.bestValue == .lt) = false := by simpa using hb
      rw [this]; simp only [Bool.false_eq_true, if_false]; split <;> rfl
  · rw [hx, hval]
    unfold Particle.moveTo Particle.setVelocity; dsimp only
    have e1 : (if compareFloats val p.bestValue == .lt then
        ({ p with velocity := v, coordinates := x, value := val, bestCoords := x, bestValue := val } : Particle α)
        else { p with velocity := v, coordinates := x, value := val }).worstValue = p.worstValue := by
      split <;> rfl
    rw [e1]
    by_cases hb : compareFloats val p.worstValue = .gt
    · rw [if_pos hb]; simp only [hb]; rfl
    · rw [if_neg hb]
      have : (compareFloats val p.worstValue == .gt) = false := by simpa using hb
      rw [this]; simp only [Bool.false_eq_true, if_false]; split <;> rfl
  · rw [(World.emit_eq_ok.1 h7).2, (World.lift_eq_ok.1 h6).2, (World.emit_eq_ok.1 h5).2, (World.lift_eq_ok.1 h4).2,
      (World.emit_eq_ok.1 h3).2, (World.lift_eq_ok.1 h2).2, (World.lift_eq_ok.1 h1).2, hv, hx, hval]
    simp only [List.append_assoc]
    rfl

theorem moves_ok {c : Comps σ α} : ∀ {ns : List Nat} {s s' : Swarm α} {w w' : World σ (List α)},
    M.foldL (moveParticle c) s ns w = .ok (s', w') → ∃ evs, Moves c ns s evs s' ∧ w'.trace = w.trace ++ evs := by
  intro ns
  induction ns with
  | nil =>
    intro s s' w w' h
    obtain ⟨rfl, rfl⟩ := M.foldL_nil_ok.1 h
    exact ⟨[], .nil, by simp⟩
  | cons n ns ih =>
    intro s s' w w' h
    obtain ⟨s1, w1, h1, h2⟩ := M.foldL_cons_ok.1 h
    obtain ⟨p, evs, p', hp, hm, rfl, ht⟩ := moveParticle_ok h1
    obtain ⟨evs', hms, ht'⟩ := ih h2
    exact ⟨_, .cons hp hm hms, by rw [ht', ht, List.append_assoc]⟩

/-- One turn without the loggers. -/
def core (c : Comps σ α) (s : Swarm α) : M (World σ (List α)) (Swarm α) := do
  let s ← M.foldL (moveParticle c) s (List.range s.particles.length)
  let s := s.updateBest.updateWorst.nextIteration
  World.emit (.generation (agents s) s.state.best (s.worst.map Particle.sol) s.iteration)
  pure s

theorem step_ok {c : Comps σ α} {s s' : Swarm α} {w w' : World σ (List α)} :
    step c s w = .ok (s', w') ↔ ∃ w1, core c s w = .ok (s', w1) ∧
      callLoggers .next s'.state 0 c.loggers w1 = .ok ((), w') := by
  unfold step core
  simp only [M.bind_eq_ok, M.pure_eq_ok]
  constructor
  · rintro ⟨a1, s1, h1, u, s7, h7, u', s8, h8, rfl, rfl⟩
    exact ⟨s7, ⟨a1, s1, h1, u, s7, h7, rfl, rfl⟩, h8⟩
  · rintro ⟨w1, ⟨a1, s1, h1, u, s7, h7, rfl, rfl⟩, h8⟩
    exact ⟨a1, s1, h1, u, s7, h7, (), w', h8, rfl, rfl⟩

/-- What one turn of the loop does. -/
theorem core_ok {c : Comps σ α} {s s' : Swarm α} {w w' : World σ (List α)} (h : core c s w = .ok (s', w')) :
    ∃ evs s1, Moves c (List.range s.particles.length) s evs s1 ∧ s' = s1.updateBest.updateWorst.nextIteration ∧
      w'.trace = w.trace ++ (evs ++ [.generation (agents s') s'.state.best (s'.worst.map Particle.sol) s'.iteration]) := by
  unfold core at h
  obtain ⟨s1, w1, h1, h⟩ := M.bind_eq_ok.1 h
  obtain ⟨u, w2, h2, h⟩ := M.bind_eq_ok.1 h
  obtain ⟨rfl, rfl⟩ := M.pure_eq_ok.1 h
  obtain ⟨evs, hm, ht⟩ := moves_ok h1
  exact ⟨evs, s1, hm, rfl, by rw [(World.emit_eq_ok.1 h2).2, ht, List.append_assoc]⟩

omit [FloatT α] in
theorem updateBest_particles (s : Swarm α) : s.updateBest.particles = s.particles := by
  unfold Swarm.updateBest
  split
  · rfl
  · split
    · rfl
    · split <;> rfl

omit [FloatT α] in
theorem updateWorst_particles (s : Swarm α) : s.updateWorst.particles = s.particles := by
  unfold Swarm.updateWorst
  split
  · rfl
  · split
    · rfl
    · split <;> rfl

omit [FloatT α] in
theorem updateBest_worst (s : Swarm α) : s.updateBest.worst = s.worst := by
  unfold Swarm.updateBest
  split
  · rfl
  · split
    · rfl
    · split <;> rfl

omit [FloatT α] in
theorem updateWorst_best (s : Swarm α) : s.updateWorst.best = s.best := by
  unfold Swarm.updateWorst
  split
  · rfl
  · split
    · rfl
    · split <;> rfl

omit [FloatT α] in
theorem updateBest_iteration (s : Swarm α) : s.updateBest.iteration = s.iteration := by
  unfold Swarm.updateBest
  split
  · rfl
  · split
    · rfl
    · split <;> rfl

omit [FloatT α] in
theorem updateWorst_iteration (s : Swarm α) : s.updateWorst.iteration = s.iteration := by
  unfold Swarm.updateWorst
  split
  · rfl
  · split
    · rfl
    · split <;> rfl

/-- The parts of the swarm that do not change while the particles move. -/
theorem _root_.Verif.Spec.Swarm.Moves.same {c : Comps σ α} {ns : List Nat} {s s' : Swarm α} {evs : List (Ev (List α))}
    (h : Moves c ns s evs s') : s'.best = s.best ∧ s'.worst = s.worst ∧ s'.iteration = s.iteration ∧
      s'.particles.length = s.particles.length := by
  induction h with
  | nil => exact ⟨rfl, rfl, rfl, rfl⟩
  | cons _ _ _ ih => simpa using ih

theorem core_iteration {c : Comps σ α} {s s' : Swarm α} {w w' : World σ (List α)} (h : core c s w = .ok (s', w')) :
    s'.iteration = s.iteration + 1 := by
  obtain ⟨evs, s1, hm, rfl, -⟩ := core_ok h
  show s1.updateBest.updateWorst.iteration + 1 = _
  rw [updateWorst_iteration, updateBest_iteration, hm.same.2.2.1]

/-- The particles that have not moved yet, and those that will move: all particles from number `i` on move once, in order. -/
theorem _root_.Verif.Spec.Swarm.Moves.range' {c : Comps σ α} : ∀ {k i : Nat} {s s' : Swarm α} {evs : List (Ev (List α))},
    i + k = s.particles.length → Moves c (List.range' i k) s evs s' →
    s'.particles.take i = s.particles.take i ∧
    goalsOf evs = (s'.particles.drop i).map Particle.sol ∧
    List.Forall₂ (fun p p' => ∃ s1 evs1, s1.best = s.best ∧ s1.worst = s.worst ∧ s1.iteration = s.iteration ∧
        s1.particles.length = s.particles.length ∧ p ∈ s1.particles ∧ Nonempty (Move c s1 p evs1 p'))
      (s.particles.drop i) (s'.particles.drop i) := by
  intro k
  induction k with
  | zero =>
    intro i s s' evs hi h
    cases h
    rw [List.drop_eq_nil_of_le (by omega)]
    exact ⟨rfl, rfl, .nil⟩
  | succ k ih =>
    intro i s s' evs hi h
    rw [List.range'_succ] at h
    cases h with
    | @cons _ _ _ p evs1 p' evs2 _ hp hm h =>
      obtain ⟨h1, h2, h3⟩ := ih (i := i + 1) (by simp; omega) h
      have hlen := h.same.2.2.2
      simp only [List.length_set] at hlen
      have hget : s'.particles[i]? = some p' := by
        have : (s'.particles.take (i + 1))[i]? = ((s.particles.set i p').take (i + 1))[i]? := by rw [h1]
        rw [List.getElem?_take_of_lt (by omega), List.getElem?_take_of_lt (by omega)] at this
        rw [this, List.getElem?_set_self (by omega)]
      have hd : s'.particles.drop i = p' :: s'.particles.drop (i + 1) := by
        obtain ⟨hlt, hg⟩ := List.getElem?_eq_some_iff.1 hget
        rw [List.drop_eq_getElem_cons hlt, hg]
      have hd0 : s.particles.drop i = p :: s.particles.drop (i + 1) := by
        obtain ⟨hlt, hg⟩ := List.getElem?_eq_some_iff.1 hp
        rw [List.drop_eq_getElem_cons hlt, hg]
      have hset : (s.particles.set i p').drop (i + 1) = s.particles.drop (i + 1) := by
        rw [List.drop_set_of_lt (by omega)]
      refine ⟨?_, ?_, ?_⟩
      · have := congrArg (List.take i) h1
        rw [List.take_take, List.take_take, Nat.min_eq_left (by omega)] at this
        rw [this, List.take_set_of_le (by omega)]
      · obtain ⟨m⟩ := hm
        unfold goalsOf at h2 ⊢
        rw [List.filterMap_append, h2, hd, m.events_ok]
        rfl
      · rw [hd, hd0]
        simp only [hset] at h3
        refine .cons ⟨s, evs1, rfl, rfl, rfl, rfl, List.mem_of_getElem? hp, hm⟩ ?_
        simpa using h3

/-- Moving all particles: every particle moves exactly once, in order, and the goal is called once for each. -/
theorem _root_.Verif.Spec.Swarm.Moves.all {c : Comps σ α} {s s' : Swarm α} {evs : List (Ev (List α))}
    (h : Moves c (List.range s.particles.length) s evs s') :
    goalsOf evs = s'.particles.map Particle.sol ∧
    List.Forall₂ (fun p p' => ∃ s1 evs1, s1.best = s.best ∧ s1.worst = s.worst ∧ s1.iteration = s.iteration ∧
        s1.particles.length = s.particles.length ∧ p ∈ s1.particles ∧ Nonempty (Move c s1 p evs1 p'))
      s.particles s'.particles := by
  rw [List.range_eq_range'] at h
  obtain ⟨-, h2, h3⟩ := Moves.range' (by simp) h
  rw [List.drop_zero] at h2 h3
  rw [List.drop_zero] at h3
  exact ⟨h2, h3⟩

/-- The events of moving particles. -/
def MoveEv : Ev (List α) → Prop
  | .velocity .. => True
  | .moved .. => True
  | .goal .. => True
  | _ => False

theorem _root_.Verif.Spec.Swarm.Moves.events {c : Comps σ α} {ns : List Nat} {s s' : Swarm α} {evs : List (Ev (List α))}
    (h : Moves c ns s evs s') : ∀ e ∈ evs, MoveEv e := by
  induction h with
  | nil => simp
  | cons _ hm _ ih =>
    obtain ⟨m⟩ := hm
    intro e he
    rcases List.mem_append.1 he with he | he
    · rw [m.events_ok] at he
      simp only [List.mem_cons, List.not_mem_nil, or_false] at he
      rcases he with rfl | rfl | rfl <;> trivial
    · exact ih e he

omit [FloatT α] in
theorem silent_of_moveEv {e : Ev (List α)} (h : MoveEv e) : Silent e := by
  cases e <;> first | trivial | exact absurd h id

/-! ## Initialization -/

/-- `renew_swarm` does not depend on the old swarm. -/
def begin (c : Comps σ α) : M (World σ (List α)) (Swarm α) := renewSwarm c Swarm.empty

omit [FloatT α] in
theorem begin_eq (c : Comps σ α) (s : Swarm α) : renewSwarm c s = begin c := rfl

omit [FloatT α] in
theorem hookAll_ok {c : Comps σ α} : ∀ {raws xs : List (List α)} {w w' : World σ (List α)},
    M.mapL (fun raw => do
      let x ← World.lift (hooks c.postMove raw)
      World.emit (.moved raw x)
      pure x) raws w = .ok (xs, w') →
    List.Forall₂ (Hooked c.postMove) raws xs ∧ w'.trace = w.trace ++ List.zipWith Ev.moved raws xs := by
  intro raws
  induction raws with
  | nil =>
    intro xs w w' h
    obtain ⟨rfl, rfl⟩ := M.mapL_nil_ok.1 h
    exact ⟨.nil, by simp⟩
  | cons raw raws ih =>
    intro xs w w' h
    obtain ⟨x, xs', w1, h1, h2, rfl⟩ := M.mapL_cons_ok.1 h
    obtain ⟨y, w2, h3, h1⟩ := M.bind_eq_ok.1 h1
    obtain ⟨u, w3, h4, h1⟩ := M.bind_eq_ok.1 h1
    obtain ⟨rfl, rfl⟩ := M.pure_eq_ok.1 h1
    obtain ⟨i1, i2⟩ := ih h2
    refine ⟨.cons (hooks_ok (World.lift_eq_ok.1 h3).1) i1, ?_⟩
    rw [i2, (World.emit_eq_ok.1 h4).2, (World.lift_eq_ok.1 h3).2]
    simp

omit [FloatT α] in
theorem newParticles_ok {c : Comps σ α} : ∀ {cs : List (List α × List α)} {ps : List (Particle α)}
    {w w' : World σ (List α)},
    M.mapL (fun (cs : List α × List α) => do
      let v ← World.lift (c.goal cs.1)
      World.emit (.goal cs.1 v)
      pure (Particle.new cs.1 cs.2 v)) cs w = .ok (ps, w') →
    List.Forall₂ (fun cv p => Returned (c.goal cv.1) p.value ∧ p = Particle.new cv.1 cv.2 p.value) cs ps ∧
      w'.trace = w.trace ++ ps.map (fun p => Ev.goal p.coordinates p.value) := by
  intro cs
  induction cs with
  | nil =>
    intro xs w w' h
    obtain ⟨rfl, rfl⟩ := M.mapL_nil_ok.1 h
    exact ⟨.nil, by simp⟩
  | cons cv cs ih =>
    intro xs w w' h
    obtain ⟨x, xs', w1, h1, h2, rfl⟩ := M.mapL_cons_ok.1 h
    obtain ⟨y, w2, h3, h1⟩ := M.bind_eq_ok.1 h1
    obtain ⟨u, w3, h4, h1⟩ := M.bind_eq_ok.1 h1
    obtain ⟨rfl, rfl⟩ := M.pure_eq_ok.1 h1
    obtain ⟨i1, i2⟩ := ih h2
    refine ⟨.cons ⟨⟨_, _, (World.lift_eq_ok.1 h3).1⟩, rfl⟩ i1, ?_⟩
    rw [i2, (World.emit_eq_ok.1 h4).2, (World.lift_eq_ok.1 h3).2]
    simp [Particle.new]

omit [FloatT α] in
/-- What the initialization does. -/
theorem begin_ok {c : Comps σ α} {s' : Swarm α} {w w' : World σ (List α)} (h : begin c w = .ok (s', w')) :
    ∃ raws xs vs ps, Returned c.coordInit raws ∧ Returned c.velInit vs ∧ raws.length = vs.length ∧
      List.Forall₂ (Hooked c.postMove) raws xs ∧
      List.Forall₂ (fun cv p => Returned (c.goal cv.1) p.value ∧ p = Particle.new cv.1 cv.2 p.value) (xs.zip vs) ps ∧
      s' = ⟨ps, findBest ps, findWorst ps, 0⟩ ∧
      w'.trace = w.trace ++ (.created raws :: List.zipWith Ev.moved raws xs ++
        ps.map (fun p => Ev.goal p.coordinates p.value)) := by
  unfold begin renewSwarm at h
  obtain ⟨raws, w1, h1, h⟩ := M.bind_eq_ok.1 h
  obtain ⟨u, w2, h2, h⟩ := M.bind_eq_ok.1 h
  obtain ⟨vs, w3, h3, h⟩ := M.bind_eq_ok.1 h
  obtain ⟨u', w4, h4, h⟩ := M.bind_eq_ok.1 h
  obtain ⟨ha, rfl⟩ := M.assert_eq_ok.1 h4
  obtain ⟨xs, w5, h5, h⟩ := M.bind_eq_ok.1 h
  obtain ⟨ps, w6, h6, h⟩ := M.bind_eq_ok.1 h
  obtain ⟨rfl, rfl⟩ := M.pure_eq_ok.1 h
  obtain ⟨k1, k2⟩ := hookAll_ok h5
  obtain ⟨k3, k4⟩ := newParticles_ok h6
  refine ⟨raws, xs, vs, ps, ⟨_, _, (World.lift_eq_ok.1 h1).1⟩, ⟨_, _, (World.lift_eq_ok.1 h3).1⟩, by simpa using ha,
    k1, k3, rfl, ?_⟩
  rw [k4, k2, (World.lift_eq_ok.1 h3).2, (World.emit_eq_ok.1 h2).2, (World.lift_eq_ok.1 h1).2]
  simp

/-! ## Invariants of histories -/

theorem findMin_ok {fuel : Nat} {o o' : Opt σ α} {r : Option (Solution (List α))} {w w' : World σ (List α)} :
    findMin fuel o w = .ok ((r, o'), w') ↔ ∃ p w1 w2, begin o.comps w = .ok (p, w1) ∧
      callLoggers .start p.state 0 o.comps.loggers w1 = .ok ((), w2) ∧
      nextIterations fuel { o with swarm := p } w2 = .ok ((r, o'), w') := by
  unfold findMin
  simp only [M.bind_eq_ok, begin_eq]
  constructor
  · rintro ⟨p, w3, h3, u', w4, h4, h⟩
    exact ⟨p, w3, w4, h3, h4, h⟩
  · rintro ⟨p, w3, w4, h3, h4, h⟩
    exact ⟨p, w3, h3, (), w4, h4, h⟩

theorem findMinHead_ok {o o' : Opt σ α} {w w' : World σ (List α)} :
    findMinHead o w = .ok (o', w') ↔ ∃ p w1 w2, begin o.comps w = .ok (p, w1) ∧
      callLoggers .start p.state 0 o.comps.loggers w1 = .ok ((), w2) ∧
      callLoggers .resume p.state 0 o.comps.loggers w2 = .ok ((), w') ∧ o' = { o with swarm := p } := by
  unfold findMinHead
  simp only [M.bind_eq_ok, M.pure_eq_ok, begin_eq]
  constructor
  · rintro ⟨p, w3, h3, u', w4, h4, u'', w5, h5, rfl, rfl⟩
    exact ⟨p, w3, w4, h3, h4, h5, rfl⟩
  · rintro ⟨p, w3, w4, h3, h4, h5, rfl⟩
    exact ⟨p, w3, h3, (), w4, h4, (), w', h5, rfl, rfl⟩

theorem nextIterations_ok {fuel : Nat} {o o' : Opt σ α} {r : Option (Solution (List α))} {w w' : World σ (List α)} :
    nextIterations fuel o w = .ok ((r, o'), w') ↔ ∃ p w1 w2,
      callLoggers .resume o.swarm.state 0 o.comps.loggers w = .ok ((), w1) ∧
      loop o.comps fuel o.swarm w1 = .ok (p, w2) ∧
      callLoggers .finish p.state 0 o.comps.loggers w2 = .ok ((), w') ∧
      r = p.state.best ∧ o' = { o with swarm := p } := by
  unfold nextIterations
  simp only [M.bind_eq_ok, M.pure_eq_ok, Prod.mk.injEq]
  have key : ∀ p : Swarm α, (match p.best with
      | none => none
      | some i => some (i.coordinates, i.value)) = p.state.best := by
    intro p; unfold Swarm.state; cases p.best <;> rfl
  constructor
  · rintro ⟨u, w1, h1, p, w2, h2, u', w3, h3, ⟨rfl, rfl⟩, rfl⟩
    exact ⟨p, w1, w2, h1, h2, h3, key p, rfl⟩
  · rintro ⟨p, w1, w2, h1, h2, h3, rfl, rfl⟩
    exact ⟨(), w1, h1, p, w2, h2, (), w', h3, ⟨key p, rfl⟩, rfl⟩

theorem loop_succ_ok {c : Comps σ α} {fuel : Nat} {p p' : Swarm α} {w w' : World σ (List α)} :
    loop c (fuel + 1) p w = .ok (p', w') ↔ ∃ b s', c.stop p.state w.user = .ok (b, s') ∧
      ((b = true ∧ p' = p ∧ w' = ⟨s', w.trace ++ [.check p.state true]⟩) ∨
       (b = false ∧ ∃ p1 w1, step c p ⟨s', w.trace ++ [.check p.state false]⟩ = .ok (p1, w1) ∧
          loop c fuel p1 w1 = .ok (p', w'))) := by
  rw [loop]
  simp only [M.bind_eq_ok]
  constructor
  · rintro ⟨b, w1, h1, u, w2, h2, h⟩
    obtain ⟨h1a, h1b⟩ := World.lift_eq_ok.1 h1
    obtain ⟨h2a, h2b⟩ := World.emit_eq_ok.1 h2
    refine ⟨b, _, h1a, ?_⟩
    have hw2 : w2 = ⟨w1.user, w.trace ++ [.check p.state b]⟩ := by
      cases w2; simp only at h2a h2b; rw [h2a, h2b, h1b]
    cases b with
    | true =>
      simp only [if_true] at h
      obtain ⟨rfl, rfl⟩ := M.pure_eq_ok.1 h
      exact .inl ⟨rfl, rfl, hw2⟩
    | false =>
      simp only [Bool.false_eq_true, if_false] at h
      obtain ⟨p1, w3, h3, h4⟩ := M.bind_eq_ok.1 h
      rw [hw2] at h3
      exact .inr ⟨rfl, p1, w3, h3, h4⟩
  · rintro ⟨b, s', h1, h⟩
    refine ⟨b, ⟨s', w.trace⟩, World.lift_eq_ok.2 ⟨h1, rfl⟩, (), ⟨s', w.trace ++ [.check p.state b]⟩,
      World.emit_eq_ok.2 ⟨rfl, rfl⟩, ?_⟩
    rcases h with ⟨rfl, rfl, rfl⟩ | ⟨rfl, p1, w1, h2, h3⟩
    · rfl
    · exact M.bind_eq_ok.2 ⟨p1, w1, h2, h3⟩

theorem turns_succ_ok {c : Comps σ α} {n : Nat} {p p' : Swarm α} {w w' : World σ (List α)} :
    turns c (n + 1) p w = .ok (p', w') ↔ ∃ s', c.stop p.state w.user = .ok (false, s') ∧
       ∃ p1 w1, step c p ⟨s', w.trace ++ [.check p.state false]⟩ = .ok (p1, w1) ∧
          turns c n p1 w1 = .ok (p', w') := by
  rw [turns]
  simp only [M.bind_eq_ok]
  constructor
  · rintro ⟨b, w1, h1, u, w2, h2, h⟩
    obtain ⟨h1a, h1b⟩ := World.lift_eq_ok.1 h1
    obtain ⟨h2a, h2b⟩ := World.emit_eq_ok.1 h2
    have hw2 : w2 = ⟨w1.user, w.trace ++ [.check p.state b]⟩ := by
      cases w2; simp only at h2a h2b; rw [h2a, h2b, h1b]
    cases b with
    | true => simp [M.fail] at h
    | false =>
      simp only [Bool.false_eq_true, if_false] at h
      obtain ⟨p1, w3, h3, h4⟩ := M.bind_eq_ok.1 h
      rw [hw2] at h3
      exact ⟨_, h1a, p1, w3, h3, h4⟩
  · rintro ⟨s', h1, p1, w1, h2, h3⟩
    exact ⟨false, ⟨s', w.trace⟩, World.lift_eq_ok.2 ⟨h1, rfl⟩, (),
      ⟨s', w.trace ++ [.check p.state false]⟩, World.emit_eq_ok.2 ⟨rfl, rfl⟩,
      M.bind_eq_ok.2 ⟨p1, w1, h2, h3⟩⟩

/-- Invariance hypotheses for properties of the population and the trace. -/
structure Inv (P : Comps σ α → Prop) (I : Swarm α → List (Ev (List α)) → Prop) : Prop where
  log : ∀ p tr i k, I p tr → I p (tr ++ [.log i k p.state])
  check : ∀ p tr b, I p tr → I p (tr ++ [.check p.state b])
  begin : ∀ c p p' w w', P c → I p w.trace → begin c w = .ok (p', w') → I p' w'.trace
  core : ∀ c p p' w w', P c → I p w.trace → core c p w = .ok (p', w') → I p' w'.trace

namespace Inv

variable {P : Comps σ α → Prop} {I : Swarm α → List (Ev (List α)) → Prop}

theorem logs (h : Inv P I) {p : Swarm α} {k : LogKind} :
    ∀ (n i : Nat) (tr : List (Ev (List α))), I p tr → I p (tr ++ logBlock k p.state i n) := by
  intro n
  induction n with
  | zero => intro i tr hI; simpa [logBlock] using hI
  | succ n ih =>
    intro i tr hI
    have := ih (i + 1) _ (h.log p tr i k hI)
    simpa [logBlock, List.range'_succ] using this

theorem callLoggers (h : Inv P I) {p : Swarm α} {k : LogKind} {ls : List (Logger σ (List α))}
    {w w' : World σ (List α)} {u : Unit} (hr : callLoggers k p.state 0 ls w = .ok (u, w'))
    (hI : I p w.trace) : I p w'.trace := by
  rw [callLoggers_trace hr]
  exact h.logs _ _ _ hI

theorem step (h : Inv P I) {c : Comps σ α} {p p' : Swarm α} {w w' : World σ (List α)} (hc : P c)
    (hr : step c p w = .ok (p', w')) (hI : I p w.trace) : I p' w'.trace := by
  obtain ⟨w1, h1, h2⟩ := step_ok.1 hr
  exact h.callLoggers h2 (h.core c p p' w w1 hc hI h1)

theorem loop (h : Inv P I) {c : Comps σ α} (hc : P c) :
    ∀ {fuel : Nat} {p p' : Swarm α} {w w' : World σ (List α)},
      loop c fuel p w = .ok (p', w') → I p w.trace → I p' w'.trace := by
  intro fuel
  induction fuel with
  | zero => intro p p' w w' hr; simp [PSO.loop, M.fail] at hr
  | succ fuel ih =>
    intro p p' w w' hr hI
    obtain ⟨b, s', -, hr⟩ := loop_succ_ok.1 hr
    rcases hr with ⟨rfl, rfl, rfl⟩ | ⟨rfl, p1, w1, h1, h2⟩
    · exact h.check _ _ _ hI
    · exact ih h2 (h.step hc h1 (h.check _ _ _ hI))

theorem turns (h : Inv P I) {c : Comps σ α} (hc : P c) :
    ∀ {n : Nat} {p p' : Swarm α} {w w' : World σ (List α)},
      turns c n p w = .ok (p', w') → I p w.trace → I p' w'.trace := by
  intro n
  induction n with
  | zero =>
    intro p p' w w' hr hI
    obtain ⟨rfl, rfl⟩ := M.pure_eq_ok.1 hr
    exact hI
  | succ n ih =>
    intro p p' w w' hr hI
    obtain ⟨s', -, p1, w1, h1, h2⟩ := turns_succ_ok.1 hr
    exact ih h2 (h.step hc h1 (h.check _ _ _ hI))

theorem nextIterations (h : Inv P I) {fuel : Nat} {o o' : Opt σ α} {r : Option (Solution (List α))}
    {w w' : World σ (List α)} (hc : P o.comps) (hr : nextIterations fuel o w = .ok ((r, o'), w'))
    (hI : I o.swarm w.trace) : I o'.swarm w'.trace := by
  obtain ⟨p, w1, w2, h1, h2, h3, -, rfl⟩ := nextIterations_ok.1 hr
  exact h.callLoggers h3 (h.loop hc h2 (h.callLoggers h1 hI))

theorem findMin (h : Inv P I) {fuel : Nat} {o o' : Opt σ α} {r : Option (Solution (List α))}
    {w w' : World σ (List α)} (hc : P o.comps) (hr : findMin fuel o w = .ok ((r, o'), w'))
    (hI : I o.swarm w.trace) : I o'.swarm w'.trace := by
  obtain ⟨p, w1, w2, h1, h2, h3⟩ := findMin_ok.1 hr
  exact h.nextIterations (o := { o with swarm := p }) hc h3
    (h.callLoggers h2 (h.begin _ _ _ _ _ hc hI h1))

theorem call (h : Inv P I) {k : Call σ α} {o o' : Opt σ α} {r : Ret α} {w w' : World σ (List α)}
    (hc : P o.comps) (hr : call o k w = .ok ((r, o'), w')) (hI : I o.swarm w.trace) :
    I o'.swarm w'.trace := by
  cases k with
  | findMin fuel =>
    obtain ⟨⟨r1, o1⟩, w1, h1, h2⟩ := M.bind_eq_ok.1 hr
    obtain ⟨h3, rfl⟩ := M.pure_eq_ok.1 h2
    cases h3
    exact h.findMin hc h1 hI
  | nextIterations fuel =>
    obtain ⟨⟨r1, o1⟩, w1, h1, h2⟩ := M.bind_eq_ok.1 hr
    obtain ⟨h3, rfl⟩ := M.pure_eq_ok.1 h2
    cases h3
    exact h.nextIterations hc h1 hI
  | _ =>
    obtain ⟨h3, rfl⟩ := M.pure_eq_ok.1 hr
    cases h3
    exact hI

end Inv

theorem nextIterations_comps {fuel : Nat} {o o' : Opt σ α} {r : Option (Solution (List α))}
    {w w' : World σ (List α)} (hr : nextIterations fuel o w = .ok ((r, o'), w')) : o'.comps = o.comps := by
  obtain ⟨p, w1, w2, -, -, -, -, rfl⟩ := nextIterations_ok.1 hr
  rfl

theorem findMin_comps {fuel : Nat} {o o' : Opt σ α} {r : Option (Solution (List α))}
    {w w' : World σ (List α)} (hr : findMin fuel o w = .ok ((r, o'), w')) : o'.comps = o.comps := by
  obtain ⟨p, w1, w2, -, -, h3⟩ := findMin_ok.1 hr
  exact nextIterations_comps (o := { o with swarm := p }) h3

theorem call_comps {k : Call σ α} {o o' : Opt σ α} {r : Ret α} {w w' : World σ (List α)}
    (hr : call o k w = .ok ((r, o'), w')) : o'.comps = setComps o.comps k := by
  cases k with
  | findMin fuel =>
    obtain ⟨⟨r1, o1⟩, w1, h1, h2⟩ := M.bind_eq_ok.1 hr
    obtain ⟨h3, rfl⟩ := M.pure_eq_ok.1 h2
    cases h3
    exact findMin_comps h1
  | nextIterations fuel =>
    obtain ⟨⟨r1, o1⟩, w1, h1, h2⟩ := M.bind_eq_ok.1 hr
    obtain ⟨h3, rfl⟩ := M.pure_eq_ok.1 h2
    cases h3
    exact nextIterations_comps h1
  | _ =>
    obtain ⟨h3, rfl⟩ := M.pure_eq_ok.1 hr
    cases h3
    rfl

theorem run_cons_ok {k : Call σ α} {ks : List (Call σ α)} {o o' : Opt σ α} {rs : List (Ret α)}
    {w w' : World σ (List α)} : run o (k :: ks) w = .ok ((rs, o'), w') ↔
      ∃ r o1 w1 rs', call o k w = .ok ((r, o1), w1) ∧ run o1 ks w1 = .ok ((rs', o'), w') ∧
        rs = r :: rs' := by
  rw [run]
  simp only [M.bind_eq_ok, M.pure_eq_ok, Prod.exists, Prod.mk.injEq]
  constructor
  · rintro ⟨r, o1, w1, h1, rs', o2, w2, h2, ⟨rfl, rfl⟩, rfl⟩
    exact ⟨r, o1, w1, rs', h1, h2, rfl⟩
  · rintro ⟨r, o1, w1, rs', h1, h2, rfl⟩
    exact ⟨r, o1, w1, h1, rs', o', w', h2, ⟨rfl, rfl⟩, rfl⟩

theorem Inv.run {P : Comps σ α → Prop} {I : Swarm α → List (Ev (List α)) → Prop} (h : Inv P I) :
    ∀ {ks : List (Call σ α)} {o o' : Opt σ α} {rs : List (Ret α)} {w w' : World σ (List α)},
      Always P o.comps ks → run o ks w = .ok ((rs, o'), w') → I o.swarm w.trace →
      I o'.swarm w'.trace ∧ P o'.comps := by
  intro ks
  induction ks with
  | nil =>
    intro o o' rs w w' hP hr hI
    obtain ⟨h1, rfl⟩ := M.pure_eq_ok.1 hr
    cases h1
    exact ⟨hI, hP⟩
  | cons k ks ih =>
    intro o o' rs w w' hP hr hI
    obtain ⟨r, o1, w1, rs', h1, h2, rfl⟩ := run_cons_ok.1 hr
    refine ih ?_ h2 (h.call hP.1 h1 hI)
    rw [call_comps h1]; exact hP.2

/-- The invariant holds at every point of every history. -/
theorem Inv.run_ret {P : Comps σ α → Prop} {I : Swarm α → List (Ev (List α)) → Prop} (h : Inv P I) :
    ∀ {ks : List (Call σ α)} {o o' : Opt σ α} {rs : List (Ret α)} {w w' : World σ (List α)},
      Always P o.comps ks → PSO.run o ks w = .ok ((rs, o'), w') → I o.swarm w.trace →
      (∃ ext, w'.trace = w.trace ++ ext) ∧
      ∀ r, some r ∈ rs → ∃ p tr ext, I p tr ∧ r = p.state.best ∧ w'.trace = tr ++ ext := by
  -- traces only grow
  have hgrow : ∀ tr0 : List (Ev (List α)), Inv (σ := σ) (α := α) (fun _ => True)
      (fun _ tr => ∃ ext, tr = tr0 ++ ext) := by
    intro tr0
    refine ⟨?_, ?_, ?_, ?_⟩
    · rintro p tr i k ⟨ext, rfl⟩; exact ⟨ext ++ [_], by rw [List.append_assoc]⟩
    · rintro p tr b ⟨ext, rfl⟩; exact ⟨ext ++ [_], by rw [List.append_assoc]⟩
    · rintro c p p' w w' - ⟨ext, he⟩ hr
      obtain ⟨raws, xs, vs, ps, -, -, -, -, -, -, ht⟩ := begin_ok hr
      rw [ht, he]; exact ⟨ext ++ _, by rw [List.append_assoc]⟩
    · rintro c p p' w w' - ⟨ext, he⟩ hr
      obtain ⟨evs, s1, -, -, ht⟩ := core_ok hr
      rw [ht, he]; exact ⟨ext ++ _, by rw [List.append_assoc]⟩
  intro ks
  induction ks with
  | nil =>
    intro o o' rs w w' hP hr hI
    obtain ⟨h1, rfl⟩ := M.pure_eq_ok.1 hr
    cases h1
    exact ⟨⟨[], by simp⟩, by simp⟩
  | cons k ks ih =>
    intro o o' rs w w' hP hr hI
    obtain ⟨r, o1, w1, rs', h1, h2, rfl⟩ := run_cons_ok.1 hr
    have hI1 := h.call hP.1 h1 hI
    obtain ⟨ext1, he1⟩ := (hgrow w.trace).call (o := o) trivial h1 ⟨[], by simp⟩
    obtain ⟨⟨ext2, he2⟩, hrs⟩ := ih (by rw [call_comps h1]; exact hP.2) h2 hI1
    refine ⟨⟨ext1 ++ ext2, by rw [he2, he1, List.append_assoc]⟩, ?_⟩
    intro r0 hr0
    rcases List.mem_cons.1 hr0 with h0 | h0
    · subst h0
      refine ⟨o1.swarm, w1.trace, ext2, hI1, ?_, he2⟩
      cases k with
      | findMin fuel =>
        obtain ⟨⟨r1, o2⟩, w2, h3, h4⟩ := M.bind_eq_ok.1 h1
        obtain ⟨h5, rfl⟩ := M.pure_eq_ok.1 h4
        cases h5
        obtain ⟨p, wa, wb, -, -, h6⟩ := findMin_ok.1 h3
        obtain ⟨q, wc, wd, -, -, -, h7, rfl⟩ := nextIterations_ok.1 h6
        exact h7
      | nextIterations fuel =>
        obtain ⟨⟨r1, o2⟩, w2, h3, h4⟩ := M.bind_eq_ok.1 h1
        obtain ⟨h5, rfl⟩ := M.pure_eq_ok.1 h4
        cases h5
        obtain ⟨q, wc, wd, -, -, -, h7, rfl⟩ := nextIterations_ok.1 h3
        exact h7
      | _ =>
        obtain ⟨h5, rfl⟩ := M.pure_eq_ok.1 h1
        cases h5
    · exact hrs r0 h0

theorem Inv.runTo {P : Comps σ α → Prop} {I : Swarm α → List (Ev (List α)) → Prop} (h : Inv P I)
    {ks : List (Call σ α)} {pt : Point} {o o' : Opt σ α} {w w' : World σ (List α)}
    (hP : Always P o.comps ks) (hr : runTo o ks pt w = .ok (o', w')) (hI : I o.swarm w.trace) :
    I o'.swarm w'.trace ∧ P o'.comps := by
  unfold PSO.runTo at hr
  obtain ⟨⟨rs, o1⟩, w1, h1, h2⟩ := M.bind_eq_ok.1 hr
  obtain ⟨hI1, hP1⟩ := h.run hP h1 hI
  cases pt with
  | done =>
    obtain ⟨rfl, rfl⟩ := M.pure_eq_ok.1 h2
    exact ⟨hI1, hP1⟩
  | inFindMin n =>
    obtain ⟨o2, w2, h3, h2⟩ := M.bind_eq_ok.1 h2
    obtain ⟨p, w3, h4, h2⟩ := M.bind_eq_ok.1 h2
    obtain ⟨rfl, rfl⟩ := M.pure_eq_ok.1 h2
    obtain ⟨p1, w4, w5, h5, h6, h7, rfl⟩ := findMinHead_ok.1 h3
    exact ⟨h.turns hP1 h4 (h.callLoggers h7 (h.callLoggers h6 (h.begin _ _ _ _ _ hP1 hI1 h5))), hP1⟩
  | inNextIterations n =>
    obtain ⟨u, w2, h3, h2⟩ := M.bind_eq_ok.1 h2
    obtain ⟨p, w3, h4, h2⟩ := M.bind_eq_ok.1 h2
    obtain ⟨rfl, rfl⟩ := M.pure_eq_ok.1 h2
    exact ⟨h.turns hP1 h4 (h.callLoggers h3 hI1), hP1⟩

end Verif.PSO
