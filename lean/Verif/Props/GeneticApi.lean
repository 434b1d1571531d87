import Verif.Props.GeneticRun
import Verif.Proofs.NoFuel
import Verif.Spec.Bounding

/-!
# C24 (termination), C25, C26, C31, C68 for the genetic optimizer
-/

namespace Verif.Props

open Verif Spec GA

variable {σ T : Type}

/-! ## C24: termination -/

theorem loop_fuel {n : Nat} {c : Comps σ T} (hstop : Bounding n c.stop) (hl : Legal c) :
    ∀ (f1 f2 : Nat) (p : Population T) (w : World σ T), n < p.iteration + f1 → n < p.iteration + f2 →
      0 < f1 → 0 < f2 → loop c f1 p w = loop c f2 p w := by
  intro f1
  induction f1 with
  | zero => intro _ _ _ _ _ h; omega
  | succ f1 ih =>
    intro f2 p w h1 h2 _ hf2
    obtain ⟨f2, rfl⟩ : ∃ k, f2 = k + 1 := ⟨f2 - 1, by omega⟩
    rw [loop, loop, M.bind_run, M.bind_run]
    cases hq : (World.lift (c.stop p.state) : M (World σ T) Bool) w with
    | error e => rfl
    | ok r =>
      obtain ⟨b, w1⟩ := r
      simp only
      obtain ⟨hb, -⟩ := World.lift_eq_ok.1 hq
      have hb' : n ≤ p.iteration → b = true := fun hle => hstop p.state _ _ _ hle hb
      rw [M.bind_run, M.bind_run]
      cases hq2 : (World.emit (.check p.state b) : M (World σ T) Unit) w1 with
      | error e => rfl
      | ok r =>
        obtain ⟨u, w2⟩ := r
        simp only
        cases b with
        | true => rfl
        | false =>
          simp only [Bool.false_eq_true, ↓reduceIte]
          rw [M.bind_run, M.bind_run]
          cases hs : step c p w2 with
          | error e => rfl
          | ok r =>
            obtain ⟨p1, w3⟩ := r
            simp only
            obtain ⟨w4, hc, -⟩ := step_ok.1 hs
            obtain ⟨evs, g, -, -⟩ := core_ok hc
            have hi := g.iteration hl
            have : ¬ n ≤ p.iteration := fun hle => by simpa using hb' hle
            exact ih f2 p1 w3 (by omega) (by omega) (by omega) (by omega)

theorem loop_noFuel {n : Nat} {c : Comps σ T} (hstop : Bounding n c.stop) (hl : Legal c)
    (hc : GA.NoFuel c) :
    ∀ (f : Nat) (p : Population T) (w : World σ T), n < p.iteration + f → 0 < f →
      loop c f p w ≠ .error .fuel := by
  intro f
  induction f with
  | zero => intro _ _ _ h; omega
  | succ f ih =>
    intro p w h1 _ herr
    rw [loop] at herr
    rcases M.bind_eq_error.1 herr with h | ⟨b, w1, hq, h⟩
    · exact World.noFuel_lift (hc.stop _) _ h
    rcases M.bind_eq_error.1 h with h | ⟨u, w2, -, h⟩
    · exact World.noFuel_emit _ _ h
    cases b with
    | true => simp only [↓reduceIte] at h; cases h
    | false =>
      simp only [Bool.false_eq_true, ↓reduceIte] at h
      rcases M.bind_eq_error.1 h with h | ⟨p1, w3, hs, h⟩
      · exact noFuel_step hc _ _ h
      · obtain ⟨hb, -⟩ := World.lift_eq_ok.1 hq
        have : ¬ n ≤ p.iteration := fun hle => by simpa using hstop p.state _ _ _ hle hb
        obtain ⟨w4, hcore, -⟩ := step_ok.1 hs
        obtain ⟨evs, g, -, -⟩ := core_ok hcore
        have hi := g.iteration hl
        exact ih p1 w3 (by omega) (by omega) h

theorem findMin_bounded (n : Nat) (o : Opt σ T) (hstop : Bounding n o.comps.stop)
    (hl : Legal o.comps) (w : World σ T) (fuel : Nat) (hf : n < fuel) :
    findMin fuel o w = findMin (n + 1) o w ∧
    (GA.NoFuel o.comps → findMin fuel o w ≠ .error .fuel) := by
  have hbeg : ∀ {p : Population T} {w1 w2 : World σ T} {start : List T},
      append o.comps o.pop.reset start w1 = .ok (p, w2) → p.iteration = 0 := by
    intro p w1 w2 start h
    obtain ⟨vals, -, rfl, -⟩ := append_ok h
    rfl
  constructor
  · unfold findMin
    rw [M.bind_run, M.bind_run]
    cases h1 : (World.lift o.comps.creator : M (World σ T) (List T)) w with
    | error e => rfl
    | ok r =>
      obtain ⟨start, w1⟩ := r
      simp only
      rw [M.bind_run, M.bind_run]
      cases h2 : (World.emit (.created start) : M (World σ T) Unit) w1 with
      | error e => rfl
      | ok r =>
        obtain ⟨u, w2⟩ := r
        simp only
        rw [M.bind_run, M.bind_run]
        cases h3 : append o.comps o.pop.reset start w2 with
        | error e => rfl
        | ok r =>
          obtain ⟨p, w3⟩ := r
          simp only
          rw [M.bind_run, M.bind_run]
          cases h4 : callLoggers .start p.state 0 o.comps.loggers w3 with
          | error e => rfl
          | ok r =>
            obtain ⟨u, w4⟩ := r
            simp only
            unfold nextIterations
            rw [M.bind_run, M.bind_run]
            cases h5 : callLoggers .resume p.state 0 o.comps.loggers w4 with
            | error e => simp only [h5]
            | ok r =>
              obtain ⟨u, w5⟩ := r
              simp only [h5]
              have := hbeg h3
              rw [M.bind_run, M.bind_run, loop_fuel hstop hl fuel (n + 1) p w5 (by omega) (by omega) (by omega)
                (by omega)]
  · intro hc herr
    unfold findMin at herr
    rcases M.bind_eq_error.1 herr with h | ⟨start, w1, -, h⟩
    · exact World.noFuel_lift hc.creator _ h
    rcases M.bind_eq_error.1 h with h | ⟨u, w2, -, h⟩
    · exact World.noFuel_emit _ _ h
    rcases M.bind_eq_error.1 h with h | ⟨p, w3, h3, h⟩
    · exact noFuel_append hc _ _ _ h
    rcases M.bind_eq_error.1 h with h | ⟨u, w4, -, h⟩
    · exact noFuel_callLoggers hc.loggers _ h
    unfold nextIterations at h
    rcases M.bind_eq_error.1 h with h | ⟨u, w5, -, h⟩
    · exact noFuel_callLoggers hc.loggers _ h
    have := hbeg h3
    rcases M.bind_eq_error.1 h with h | ⟨p', w6, -, h⟩
    · exact loop_noFuel hstop hl hc fuel p w5 (by omega) (by omega) h
    rcases M.bind_eq_error.1 h with h | ⟨u, w6, -, h⟩
    · exact noFuel_callLoggers hc.loggers _ h
    · cases h

/-- C24 (genetic): with `MaxIterations(n)` the outcome of `find_min` is the same for every bound larger than `n` on the number of
turns of its loop, so the unbounded loop of the program ends within `n` turns. -/
theorem C24_genetic_terminates (n : Nat) (o : Opt σ T) (hstop : o.comps.stop = Stop.maxIterations n)
    (hl : Legal o.comps) (w : World σ T) (fuel : Nat) (hf : n < fuel) :
    findMin fuel o w = findMin (n + 1) o w ∧
    (GA.NoFuel o.comps → findMin fuel o w ≠ .error .fuel) :=
  findMin_bounded n o (hstop ▸ maxIterations_bounding n) hl w fuel hf

/-- C24 (genetic): likewise for `next_iterations`, which ends within the turns that are left. -/
theorem C24_genetic_next_terminates (n : Nat) (o : Opt σ T) (hstop : o.comps.stop = Stop.maxIterations n)
    (hl : Legal o.comps) (w : World σ T) (fuel : Nat) (hf : n - o.pop.iteration < fuel) :
    nextIterations fuel o w = nextIterations (n - o.pop.iteration + 1) o w ∧
    (GA.NoFuel o.comps → nextIterations fuel o w ≠ .error .fuel) := by
  have hb : Bounding n o.comps.stop := hstop ▸ maxIterations_bounding n
  constructor
  · unfold nextIterations
    rw [M.bind_run, M.bind_run]
    cases h5 : callLoggers .resume o.pop.state 0 o.comps.loggers w with
    | error e => rfl
    | ok r =>
      obtain ⟨u, w5⟩ := r
      simp only
      rw [M.bind_run, M.bind_run, loop_fuel hb hl fuel (n - o.pop.iteration + 1) o.pop w5 (by omega) (by omega) (by omega)
        (by omega)]
  · intro hc h
    unfold nextIterations at h
    rcases M.bind_eq_error.1 h with h | ⟨u, w5, -, h⟩
    · exact noFuel_callLoggers hc.loggers _ h
    rcases M.bind_eq_error.1 h with h | ⟨p', w6, -, h⟩
    · exact loop_noFuel hb hl hc fuel o.pop w5 (by omega) (by omega) h
    rcases M.bind_eq_error.1 h with h | ⟨u, w6, -, h⟩
    · exact noFuel_callLoggers hc.loggers _ h
    · cases h

example : Demo.opt.comps.stop = Stop.maxIterations 2 ∧ Legal Demo.opt.comps ∧
    ∃ r w', findMin 3 Demo.opt Demo.world = .ok (r, w') := by
  obtain ⟨r, w', h, -⟩ := M.okAnd_iff.1 Demo.runs
  exact ⟨rfl, demo_legal, r, w', h⟩

/-! ## C25 -/

/-- C25 (genetic): after any history, `find_min` behaves as on a freshly built optimizer with the components that
are now plugged in. -/
theorem C25_genetic (o o' : Opt σ T) (ks : List (Call σ T)) (rs : List (Ret T)) (w w' : World σ T)
    (_hr : run o ks w = .ok ((rs, o'), w')) (fuel : Nat) :
    findMin fuel o' w' = findMin fuel ⟨o'.comps, ⟨[], none, none, 0⟩⟩ w' := rfl

/-- C25 (genetic), for arbitrary states. -/
theorem C25_genetic_any (o1 o2 : Opt σ T) (h : o1.comps = o2.comps) (fuel : Nat) (w : World σ T) :
    findMin fuel o1 w = findMin fuel o2 w := by
  obtain ⟨c1, p1⟩ := o1
  obtain ⟨c2, p2⟩ := o2
  cases h
  rfl

/-! ## C26 -/

theorem turns_last {c : Comps σ T} : ∀ {k : Nat} {p p' : Population T} {w w' : World σ T}, 0 < k →
    turns c k p w = .ok (p', w') → ∃ p1 w1 w2, core c p1 w1 = .ok (p', w2) := by
  intro k
  induction k with
  | zero => intro _ _ _ _ h; omega
  | succ k ih =>
    intro p p' w w' _ h
    obtain ⟨s1, -, p1, w1, h1, h2⟩ := turns_succ_ok.1 h
    rcases Nat.eq_zero_or_pos k with h0 | h0
    · subst h0
      obtain ⟨rfl, rfl⟩ := M.pure_eq_ok.1 h2
      obtain ⟨w2, h3, -⟩ := step_ok.1 h1
      exact ⟨p, _, w2, h3⟩
    · exact ih h0 h2

/-- C26 (genetic): `find_min` returns the best solution of the final state, which is the one every logger was given by
`finish`; without any generation that is `None`; after a generation with survivors it is the best survivor. -/
theorem C26_genetic_findMin (o o' : Opt σ T) (hl : Legal o.comps) (fuel : Nat) (w w' : World σ T)
    (r : Option (Solution T)) (hr : findMin fuel o w = .ok ((r, o'), w')) :
    r = o'.pop.state.best ∧
    (∃ ext pre, w'.trace = w.trace ++ ext ∧ logsOf ext = pre ++ block o.comps.loggers.length .finish o'.pop.state) ∧
    (o'.pop.iteration = 0 → r = none) ∧
    (0 < o'.pop.iteration → o'.pop.individuals ≠ [] → ∃ b, r = some b ∧ IsBest (agents o'.pop) b) := by
  obtain ⟨k, sts, ext, -, ht, -, hit, hrr, hlg, hsi, -, -, hlast, p0, w1, w2, s', h0, htu, -⟩ := findMin_spec hl hr
  refine ⟨hrr, ⟨ext, _, ht, hlg⟩, ?_, ?_⟩
  · intro h
    have hk : k = 0 := by omega
    subst hk
    have : sts = [] := by
      have := congrArg List.length hsi
      simpa using this
    subst this
    simp only [List.getLast?_singleton, Option.some.injEq] at hlast
    rw [hrr, ← hlast]
  · intro h hne
    obtain ⟨p1, w3, w4, hc⟩ := turns_last (by omega) htu
    obtain ⟨evs, g, -, hup⟩ := core_ok hc
    obtain ⟨b, hb, hbm, hba⟩ := hup.best hne
    exact ⟨b.sol, by rw [hrr]; simp [Population.state, hb], isBest_of hbm hba⟩

/-- C26 (genetic), for `next_iterations`. If it does no generation it returns the best known before. -/
theorem C26_genetic_nextIterations (o o' : Opt σ T) (hl : Legal o.comps) (fuel : Nat) (w w' : World σ T)
    (r : Option (Solution T)) (hr : nextIterations fuel o w = .ok ((r, o'), w')) :
    r = o'.pop.state.best ∧
    (∃ ext pre, w'.trace = w.trace ++ ext ∧ logsOf ext = pre ++ block o.comps.loggers.length .finish o'.pop.state) ∧
    (o'.pop.iteration = o.pop.iteration → r = o.pop.state.best) ∧
    (o.pop.iteration < o'.pop.iteration → o'.pop.individuals ≠ [] → ∃ b, r = some b ∧ IsBest (agents o'.pop) b) := by
  obtain ⟨k, sts, ext, -, ht, -, hit, hrr, hlg, hsi, -, -, hlast, w1, w2, s', htu, -⟩ := nextIterations_spec hl hr
  refine ⟨hrr, ⟨ext, _, ht, hlg⟩, ?_, ?_⟩
  · intro h
    have hk : k = 0 := by omega
    subst hk
    have : sts = [] := by
      have := congrArg List.length hsi
      simpa using this
    subst this
    simp only [List.getLast?_singleton, Option.some.injEq] at hlast
    rw [hrr, ← hlast]
  · intro h hne
    obtain ⟨p1, w3, w4, hc⟩ := turns_last (by omega) htu
    obtain ⟨evs, g, -, hup⟩ := core_ok hc
    obtain ⟨b, hb, hbm, hba⟩ := hup.best hne
    exact ⟨b.sol, by rw [hrr]; simp [Population.state, hb], isBest_of hbm hba⟩

/-- C26: a run with `MaxIterations(0)` creates four individuals and returns `None`. -/
theorem C26_none_witness : M.okAnd (run Demo.opt [.setStopChecker (Stop.maxIterations 0), .findMin 1] Demo.world)
    (fun r _ => r.1.map (fun x => x.map Option.isSome) == [none, some false] &&
      r.2.pop.individuals.length == 4) = true := by decide +kernel

/-! ## C31 -/

/-- C31 (genetic, `find_min`): the complete list of logger calls. `sts` are the states after each generation. -/
theorem C31_genetic_findMin (o o' : Opt σ T) (hl : Legal o.comps) (fuel : Nat) (w w' : World σ T)
    (r : Option (Solution T)) (hr : findMin fuel o w = .ok ((r, o'), w')) :
    ∃ ext sts, w'.trace = w.trace ++ ext ∧
      logsOf ext = block o.comps.loggers.length .start ⟨none, 0⟩ ++ block o.comps.loggers.length .resume ⟨none, 0⟩ ++
        sts.flatMap (block o.comps.loggers.length .next) ++ block o.comps.loggers.length .finish o'.pop.state ∧
      sts.map AlgState.iteration = List.range' 1 o'.pop.iteration ∧
      generationsOf ext = List.range' 1 o'.pop.iteration ∧
      (⟨none, 0⟩ :: sts).getLast? = some o'.pop.state := by
  obtain ⟨k, sts, ext, -, ht, -, rfl, hrr, hlg, hsi, hg, -, hlast, -⟩ := findMin_spec hl hr
  exact ⟨ext, sts, ht, hlg, hsi, hg, hlast⟩

/-- C31 (genetic, `next_iterations`): the complete list of logger calls. -/
theorem C31_genetic_nextIterations (o o' : Opt σ T) (hl : Legal o.comps) (fuel : Nat) (w w' : World σ T)
    (r : Option (Solution T)) (hr : nextIterations fuel o w = .ok ((r, o'), w')) :
    ∃ ext sts, w'.trace = w.trace ++ ext ∧
      logsOf ext = block o.comps.loggers.length .resume o.pop.state ++
        sts.flatMap (block o.comps.loggers.length .next) ++ block o.comps.loggers.length .finish o'.pop.state ∧
      sts.map AlgState.iteration = List.range' (o.pop.iteration + 1) (o'.pop.iteration - o.pop.iteration) ∧
      generationsOf ext = List.range' (o.pop.iteration + 1) (o'.pop.iteration - o.pop.iteration) ∧
      (o.pop.state :: sts).getLast? = some o'.pop.state := by
  obtain ⟨k, sts, ext, -, ht, -, hit, hrr, hlg, hsi, hg, -, hlast, -⟩ := nextIterations_spec hl hr
  have : k = o'.pop.iteration - o.pop.iteration := by omega
  subst this
  exact ⟨ext, sts, ht, hlg, hsi, hg, hlast⟩

/-- Two loggers and two generations: ten calls, in the order required. -/
example : M.okAnd (findMin 3 Demo.opt Demo.world) (fun _ w =>
    (logsOf w.trace).map (fun l => (l.1, l.2.1, l.2.2.iteration)) ==
      [(0, .start, 0), (1, .start, 0), (0, .resume, 0), (1, .resume, 0), (0, .next, 1), (1, .next, 1),
        (0, .next, 2), (1, .next, 2), (0, .finish, 2), (1, .finish, 2)]) = true := by decide +kernel

/-! ## C68 -/

/-- The setters among the public calls. -/
def IsSetter : Call σ T → Prop
  | .findMin _ => False
  | .nextIterations _ => False
  | _ => True

/-- C68 (genetic): a setter only replaces its component. It touches neither the population (with its best, worst and
generation number) nor the world, and the rest of the history runs on the optimizer with the new component. -/
theorem C68_genetic (o : Opt σ T) (k : Call σ T) (hk : IsSetter k) (ks : List (Call σ T)) (w : World σ T) :
    call o k w = .ok ((none, ⟨setComps o.comps k, o.pop⟩), w) ∧
    run o (k :: ks) w = (do
      let (rs, o') ← run ⟨setComps o.comps k, o.pop⟩ ks
      pure (none :: rs, o') : M (World σ T) _) w := by
  cases k <;> first | exact absurd hk id | exact ⟨rfl, rfl⟩

/-- C68 (genetic): right after `new`, setting the components gives the optimizer built with them. -/
theorem C68_genetic_new (g : T → M σ F64) (st st' : AlgState T → M σ Bool) (cr : M σ (List T))
    (pa pa' : Population T → M σ (List (List Nat))) (cx cx' : List T → M σ (List T)) (mu mu' : T → M σ T)
    (se se' : List (Population T → M σ (Population T))) (pb pb' : List (Population T → List T → M σ (List T)))
    (w : World σ T) :
    run (GA.new g st cr pa cx mu se pb) [.setStopChecker st', .setPairing pa', .setCross cx', .setMutation mu',
      .setSelection se', .setPreBirth pb'] w =
    .ok ((List.replicate 6 none, GA.new g st' cr pa' cx' mu' se' pb'), w) := rfl

end Verif.Props
