import Verif.Proofs.Swarm

/-!
# Turns of the swarm loop
-/

set_option linter.unusedSectionVars false

namespace Verif.PSO

open Verif Spec Spec.Swarm
open Verif.GA (logBlock callLoggers_trace)

variable {σ α : Type} [FloatT α]

/-- The loop is some number of turns and a final consultation that says stop. -/
theorem loop_turns {c : Comps σ α} : ∀ {fuel : Nat} {p p' : Swarm α} {w w' : World σ (List α)},
    loop c fuel p w = .ok (p', w') → ∃ k w1 s', k < fuel ∧ turns c k p w = .ok (p', w1) ∧
      c.stop p'.state w1.user = .ok (true, s') ∧ w' = ⟨s', w1.trace ++ [.check p'.state true]⟩ := by
  intro fuel
  induction fuel with
  | zero => intro p p' w w' h; simp [loop, M.fail] at h
  | succ fuel ih =>
    intro p p' w w' h
    obtain ⟨b, s', hs, h⟩ := loop_succ_ok.1 h
    rcases h with ⟨rfl, rfl, rfl⟩ | ⟨rfl, p1, w1, h1, h2⟩
    · exact ⟨0, w, s', by omega, rfl, hs, rfl⟩
    · obtain ⟨k, w2, s2, hk, ht, hs2, hw⟩ := ih h2
      exact ⟨k + 1, w2, s2, by omega, turns_succ_ok.2 ⟨s', hs, p1, w1, h1, ht⟩, hs2, hw⟩

theorem turns_loop {c : Comps σ α} : ∀ {k : Nat} {p p' : Swarm α} {w w1 : World σ (List α)} {s' : σ},
    turns c k p w = .ok (p', w1) → c.stop p'.state w1.user = .ok (true, s') →
    ∀ fuel, k < fuel → loop c fuel p w = .ok (p', ⟨s', w1.trace ++ [.check p'.state true]⟩) := by
  intro k
  induction k with
  | zero =>
    intro p p' w w1 s' h hs fuel hf
    obtain ⟨rfl, rfl⟩ := M.pure_eq_ok.1 h
    obtain ⟨n, rfl⟩ : ∃ n, fuel = n + 1 := ⟨fuel - 1, by omega⟩
    exact loop_succ_ok.2 ⟨true, s', hs, .inl ⟨rfl, rfl, rfl⟩⟩
  | succ k ih =>
    intro p p' w w1 s' h hs fuel hf
    obtain ⟨n, rfl⟩ : ∃ n, fuel = n + 1 := ⟨fuel - 1, by omega⟩
    obtain ⟨s2, hs2, p1, w2, h1, h2⟩ := turns_succ_ok.1 h
    exact loop_succ_ok.2 ⟨false, s2, hs2, .inr ⟨rfl, p1, w2, h1, ih h2 hs n (by omega)⟩⟩

/-- What `k` turns leave in the trace. `sts` are the states after each turn. -/
theorem turns_spec {c : Comps σ α} : ∀ {k : Nat} {p p' : Swarm α} {w w' : World σ (List α)},
    turns c k p w = .ok (p', w') →
      p'.iteration = p.iteration + k ∧ ∃ ext sts, w'.trace = w.trace ++ ext ∧
        logsOf ext = sts.flatMap (block c.loggers.length .next) ∧
        sts.map AlgState.iteration = List.range' (p.iteration + 1) k ∧
        generationsOf ext = List.range' (p.iteration + 1) k ∧
        checksOf ext = ((p.state :: sts).dropLast).map (fun s => (s, false)) ∧
        (p.state :: sts).getLast? = some p'.state := by
  intro k
  induction k with
  | zero =>
    intro p p' w w' h
    obtain ⟨rfl, rfl⟩ := M.pure_eq_ok.1 h
    exact ⟨rfl, [], [], by simp, rfl, rfl, rfl, rfl, rfl⟩
  | succ k ih =>
    intro p p' w w' h
    obtain ⟨s', -, p1, w1, h1, h2⟩ := turns_succ_ok.1 h
    obtain ⟨hit, ext, sts, ht, hl, hi, hg, hch, hlast⟩ := ih h2
    obtain ⟨w2, h3, h4⟩ := step_ok.1 h1
    obtain ⟨sil, s1, hm, -, ht2⟩ := core_ok h3
    have hs : ∀ e ∈ sil, Silent e := fun e he => silent_of_moveEv (hm.events e he)
    have hi1 := core_iteration h3
    refine ⟨by omega, [.check p.state false] ++ (sil ++ [.generation (agents p1) p1.state.best
      (p1.worst.map Particle.sol) p1.iteration]) ++ logBlock .next p1.state 0 c.loggers.length ++ ext,
      p1.state :: sts, ?_, ?_, ?_, ?_, ?_, ?_⟩
    · rw [ht, callLoggers_trace h4, ht2]; simp
    · rw [logsOf_append, logsOf_append, logsOf_append, logsOf_append, logsOf_silent hs, logsOf_logBlock, hl]
      simp [logsOf]
    · rw [List.map_cons, hi, List.range'_succ]
      show p1.iteration :: _ = _
      rw [hi1]
    · rw [generationsOf_append, generationsOf_append, generationsOf_append, generationsOf_append,
        generationsOf_silent hs, generationsOf_logBlock, hg, hi1, List.range'_succ]
      simp [generationsOf, hi1]
    · rw [checksOf_append, checksOf_append, checksOf_append, checksOf_append,
        checksOf_silent hs, checksOf_logBlock, hch]
      simp [checksOf]
    · rw [List.getLast?_cons_cons]; exact hlast

/-- The events of `find_min`'s prelude. -/
theorem begin_events {c : Comps σ α} {p' : Swarm α} {w w' : World σ (List α)}
    (h : begin c w = .ok (p', w')) : ∃ ext, w'.trace = w.trace ++ ext ∧
      logsOf ext = [] ∧ generationsOf ext = [] ∧ checksOf ext = [] ∧ p'.iteration = 0 := by
  obtain ⟨raws, xs, vs, ps, -, -, -, -, -, rfl, ht⟩ := begin_ok h
  have hs : ∀ e ∈ (Ev.created raws :: List.zipWith Ev.moved raws xs ++
        ps.map (fun p => Ev.goal p.coordinates p.value)), Silent e := by
    intro e he
    simp only [List.cons_append, List.mem_cons, List.mem_append, List.mem_map] at he
    rcases he with rfl | he | ⟨p, -, rfl⟩
    · trivial
    · obtain ⟨_, _, _, _, rfl⟩ := mem_zipWith he; trivial
    · trivial
  exact ⟨_, ht, logsOf_silent hs, generationsOf_silent hs, checksOf_silent hs, rfl⟩

/-- What `next_iterations` leaves in the trace, and what it returns. -/
theorem nextIterations_spec {o o' : Opt σ α} {fuel : Nat} {r : Option (Solution (List α))}
    {w w' : World σ (List α)} (hr : nextIterations fuel o w = .ok ((r, o'), w')) :
    ∃ k sts ext, k < fuel ∧ w'.trace = w.trace ++ ext ∧ o'.comps = o.comps ∧
      o'.swarm.iteration = o.swarm.iteration + k ∧ r = o'.swarm.state.best ∧
      logsOf ext = block o.comps.loggers.length .resume o.swarm.state ++
        sts.flatMap (block o.comps.loggers.length .next) ++
        block o.comps.loggers.length .finish o'.swarm.state ∧
      sts.map AlgState.iteration = List.range' (o.swarm.iteration + 1) k ∧
      generationsOf ext = List.range' (o.swarm.iteration + 1) k ∧
      checksOf ext = ((o.swarm.state :: sts).dropLast).map (fun s => (s, false)) ++ [(o'.swarm.state, true)] ∧
      (o.swarm.state :: sts).getLast? = some o'.swarm.state ∧
      (∃ w1 w2 s', turns o.comps k o.swarm w1 = .ok (o'.swarm, w2) ∧
        o.comps.stop o'.swarm.state w2.user = .ok (true, s')) := by
  obtain ⟨p2, w3, w4, h4, h5, h6, hr2, rfl⟩ := nextIterations_ok.1 hr
  obtain ⟨k, w5, s', hkf, hk, hend, rfl⟩ := loop_turns h5
  obtain ⟨hit, ext, sts, ht, hlg, hsi, hg, hch, hlast⟩ := turns_spec hk
  refine ⟨k, sts, logBlock .resume o.swarm.state 0 o.comps.loggers.length ++ ext ++ [.check p2.state true] ++
      logBlock .finish p2.state 0 o.comps.loggers.length, hkf, ?_, rfl, hit, hr2, ?_, hsi, ?_, ?_, hlast,
      w3, w5, s', hk, hend⟩
  · rw [callLoggers_trace h6]
    simp only
    rw [ht, callLoggers_trace h4]
    simp
  · simp only [logsOf_append, logsOf_logBlock, hlg]
    simp [logsOf]
  · simp only [generationsOf_append, generationsOf_logBlock, hg]
    simp [generationsOf]
  · simp only [checksOf_append, checksOf_logBlock, hch]
    simp [checksOf]

/-- What `find_min` leaves in the trace, and what it returns. `p0` is the initial swarm. -/
theorem findMin_spec {o o' : Opt σ α} {fuel : Nat} {r : Option (Solution (List α))}
    {w w' : World σ (List α)} (hr : findMin fuel o w = .ok ((r, o'), w')) :
    ∃ k sts ext p0 wb, k < fuel ∧ w'.trace = w.trace ++ ext ∧ o'.comps = o.comps ∧
      begin o.comps w = .ok (p0, wb) ∧ p0.iteration = 0 ∧
      o'.swarm.iteration = k ∧ r = o'.swarm.state.best ∧
      logsOf ext = block o.comps.loggers.length .start p0.state ++ block o.comps.loggers.length .resume p0.state ++
        sts.flatMap (block o.comps.loggers.length .next) ++
        block o.comps.loggers.length .finish o'.swarm.state ∧
      sts.map AlgState.iteration = List.range' 1 k ∧
      generationsOf ext = List.range' 1 k ∧
      checksOf ext = ((p0.state :: sts).dropLast).map (fun s => (s, false)) ++ [(o'.swarm.state, true)] ∧
      (p0.state :: sts).getLast? = some o'.swarm.state ∧
      (∃ w1 w2 s', turns o.comps k p0 w1 = .ok (o'.swarm, w2) ∧
        o.comps.stop o'.swarm.state w2.user = .ok (true, s')) := by
  obtain ⟨p, w1, w2, h1, h2, h3⟩ := findMin_ok.1 hr
  obtain ⟨ext0, ht0, hlg0, hg0, hc0, hp0⟩ := begin_events h1
  obtain ⟨k, sts, ext, hkf, ht, hc, hit, hrr, hlg, hsi, hg, hch, hlast, w3, w4, s', htu, hend⟩ :=
    nextIterations_spec (o := ⟨o.comps, p⟩) h3
  simp only [hp0, Nat.zero_add] at hit hlg hsi hg hch hlast
  refine ⟨k, sts, ext0 ++ logBlock .start p.state 0 o.comps.loggers.length ++ ext, p, w1, hkf, ?_, hc, h1, hp0, hit, hrr,
    ?_, hsi, ?_, ?_, hlast, w3, w4, s', htu, hend⟩
  · rw [ht, callLoggers_trace h2, ht0]; simp
  · simp only [logsOf_append, logsOf_logBlock, hlg0, hlg]
    simp
  · simp only [generationsOf_append, generationsOf_logBlock, hg0, hg]
    simp
  · simp only [checksOf_append, checksOf_logBlock, hc0, hch]
    simp

end Verif.PSO
