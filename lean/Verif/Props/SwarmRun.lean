import Verif.Proofs.SwarmInv
import Verif.Props.SwarmDemo
import Verif.Props.GeneticRun

/-!
# C22, C27, C39, C40, C67 for the particle swarm optimizer
-/

set_option linter.unusedSectionVars false

namespace Verif.Props.Swarm

open Verif Spec Spec.Swarm PSO

variable {σ α : Type} [FloatT α]

/-- A fresh optimizer for the examples. -/
theorem demo_fresh : Fresh SwarmDemo.opt SwarmDemo.world := ⟨rfl, rfl⟩

/-- The hypotheses of the theorems about histories are met: a run of two iterations, resumed for two more. -/
theorem demo_runTo : ∃ o' w', Fresh SwarmDemo.opt SwarmDemo.world ∧
    runTo SwarmDemo.opt SwarmDemo.calls .done SwarmDemo.world = .ok (o', w') ∧ o'.swarm.iteration = 4 := by
  obtain ⟨⟨rs, o'⟩, w', h, h2⟩ := M.okAnd_iff.1 SwarmDemo.runs_on
  refine ⟨o', w', demo_fresh, M.bind_eq_ok.2 ⟨_, _, h, rfl⟩, ?_⟩
  simp only [Bool.and_eq_true, beq_iff_eq] at h2
  exact h2.1

/-! ## C39 -/

/-- C39: at every point of every history, every best solution the swarm has ever shown to a stop checker or logger, or at the
end of an iteration, is the best of all points evaluated in that run before; it is missing only if nothing was evaluated. -/
theorem C39_shown (o o' : Opt σ α) (w w' : World σ (List α)) (ks : List (Call σ α)) (pt : Point)
    (h0 : Fresh o w) (hr : runTo o ks pt w = .ok (o', w'))
    (before after : List (Ev (List α))) (e : Ev (List α)) (best : Option (Solution (List α)))
    (ht : w'.trace = before ++ e :: after) (he : shownBest e = some best) :
    (best = none ↔ goalsSince before = []) ∧ ∀ b, best = some b → IsBestOf (goalsSince before) b :=
  ((inv_history.runTo (PSO.always_true _ _) hr (history_fresh h0)).1.1 before e after ht).1 best he

/-- C39, for the state itself, with the worst solution. -/
theorem C39_state (o o' : Opt σ α) (w w' : World σ (List α)) (ks : List (Call σ α)) (pt : Point)
    (h0 : Fresh o w) (hr : runTo o ks pt w = .ok (o', w')) :
    (o'.swarm.best = none ↔ goalsSince w'.trace = []) ∧
    (∀ b, o'.swarm.best = some b → IsBestOf (goalsSince w'.trace) (b.coordinates, b.value)) ∧
    (o'.swarm.worst = none ↔ goalsSince w'.trace = []) ∧
    (∀ b, o'.swarm.worst = some b → IsWorstOf (goalsSince w'.trace) (b.coordinates, b.value)) := by
  have := (inv_history.runTo (PSO.always_true _ _) hr (history_fresh h0)).1.2.1
  exact ⟨this.1, this.2, this.3, this.4⟩

theorem isBestOf_prefix {xs ys : List (Solution (List α))} {b b' : Solution (List α)} (h : IsBestOf xs b)
    (h' : IsBestOf (xs ++ ys) b') : NotWorse b'.2 b.2 := h'.2 b (List.mem_append_left _ h.1)

/-- C39: between two moments of one run (no new initialization between them) the best solution does not disappear and
does not get worse. -/
theorem C39_monotone (o o' : Opt σ α) (w w' : World σ (List α)) (ks : List (Call σ α)) (pt : Point)
    (h0 : Fresh o w) (hr : runTo o ks pt w = .ok (o', w'))
    (before between after : List (Ev (List α))) (e1 e2 : Ev (List α)) (b1 : Solution (List α))
    (best2 : Option (Solution (List α)))
    (ht : w'.trace = before ++ e1 :: (between ++ e2 :: after)) (hn : ∀ e ∈ between, NotCreated e)
    (he1 : shownBest e1 = some (some b1)) (he2 : shownBest e2 = some best2) :
    ∃ b2, best2 = some b2 ∧ NotWorse b2.2 b1.2 := by
  have h1 := (C39_shown o o' w w' ks pt h0 hr before _ e1 _ ht he1).2 b1 rfl
  have h2 := C39_shown o o' w w' ks pt h0 hr (before ++ e1 :: between) after e2 best2 (by rw [ht]; simp) he2
  have hg : goalsSince (before ++ e1 :: between) = goalsSince before ++ goalsOf (e1 :: between) := by
    apply goalsSince_append
    intro e he
    rcases List.mem_cons.1 he with rfl | he
    · cases e <;> first | trivial | cases he1
    · exact hn e he
  rw [hg] at h2
  cases best2 with
  | none =>
    have := h2.1.1 rfl
    have h3 := (List.append_eq_nil_iff.1 this).1
    rw [h3] at h1
    exact absurd h1.1 (by simp)
  | some b2 => exact ⟨b2, rfl, isBestOf_prefix h1 (h2.2 b2 rfl)⟩

/-- C39: no finite goal value of this run is smaller than the best one. -/
theorem C39_minimum (o o' : Opt σ α) (w w' : World σ (List α)) (ks : List (Call σ α)) (pt : Point)
    (h0 : Fresh o w) (hr : runTo o ks pt w = .ok (o', w')) (a : Solution (List α)) (ha : a ∈ goalsSince w'.trace)
    (hf : a.2.isFinite = true) : ∃ b, o'.swarm.best = some b ∧ b.value.isFinite = true ∧ b.value.le a.2 = true := by
  obtain ⟨h1, h2, -, -⟩ := C39_state o o' w w' ks pt h0 hr
  cases hb : o'.swarm.best with
  | none => rw [h1.1 hb] at ha; simp at ha
  | some b =>
    rcases (h2 b hb).2 a ha with ⟨h3, -, h4⟩ | h3
    · exact ⟨b, rfl, h3, h4⟩
    · rw [hf] at h3; cases h3

/-- Four goal values per particle, and the best of them reported. -/
example : M.okAnd (PSO.run SwarmDemo.opt SwarmDemo.calls SwarmDemo.world) (fun r w =>
    (goalsSince w.trace).length == 15 && (goalsOf w.trace).length == 15 &&
    r.2.swarm.best.isSome) = true := by decide +kernel

/-! ## C40 -/

/-- C40: at every point of every history the values of the current run form a table with one row for the initial
swarm and one for each iteration, one column for each particle, in evaluation order; the last row is the swarm; and the
personal best and worst of each particle are extremes of its column. -/
theorem C40_table (o o' : Opt σ α) (w w' : World σ (List α)) (ks : List (Call σ α)) (pt : Point)
    (h0 : Fresh o w) (hr : runTo o ks pt w = .ok (o', w')) : ∃ rows, Table o'.swarm w'.trace rows :=
  (inv_history.runTo (PSO.always_true _ _) hr (history_fresh h0)).1.2.2

/-- C40, the consequence for one particle: its personal best was evaluated in this run and is at least as good as where it is
now; its personal worst was evaluated and is at least as bad. -/
theorem C40_personal (o o' : Opt σ α) (w w' : World σ (List α)) (ks : List (Call σ α)) (pt : Point)
    (h0 : Fresh o w) (hr : runTo o ks pt w = .ok (o', w')) (p : Particle α) (hp : p ∈ o'.swarm.particles) :
    (p.bestCoords, p.bestValue) ∈ goalsSince w'.trace ∧ (p.worstCoords, p.worstValue) ∈ goalsSince w'.trace ∧
    (p.coordinates, p.value) ∈ goalsSince w'.trace ∧
    NotWorse p.bestValue p.value ∧ NotWorse p.value p.worstValue := by
  obtain ⟨rows, h⟩ := C40_table o o' w w' ks pt h0 hr
  obtain ⟨n, hn, rfl⟩ := List.getElem_of_mem hp
  obtain ⟨⟨hb1, hb2⟩, hw1, hw2⟩ := h.personal n _ (List.getElem?_eq_getElem hn)
  have hcol : ∀ a, a ∈ column n rows → a ∈ goalsSince w'.trace := by
    intro a ha
    obtain ⟨row, hrow, hra⟩ := List.mem_filterMap.1 ha
    rw [h.flat]
    exact List.mem_flatten.2 ⟨row, hrow, List.mem_of_getElem? hra⟩
  have hlast : o'.swarm.particles[n].sol ∈ column n rows := by
    refine List.mem_filterMap.2 ⟨_, List.mem_of_mem_getLast? h.last, ?_⟩
    simp [hn]
  exact ⟨hcol _ hb1, hcol _ hw1, hcol _ hlast, hb2 _ hlast, hw2 _ hlast⟩

/-! ## C22 -/

/-- C22 (swarm): at every point of every history everything the optimizer holds or has shown to loggers and stop
checkers had been evaluated with exactly the value shown. -/
theorem C22_swarm_evaluated (o o' : Opt σ α) (w w' : World σ (List α)) (ks : List (Call σ α)) (pt : Point)
    (h0 : Fresh o w) (hr : runTo o ks pt w = .ok (o', w')) :
    OnlyEvaluated w'.trace ∧
    (∀ p ∈ o'.swarm.particles, Evaluated w'.trace (p.coordinates, p.value) ∧
      Evaluated w'.trace (p.bestCoords, p.bestValue) ∧ Evaluated w'.trace (p.worstCoords, p.worstValue)) ∧
    (∀ b, o'.swarm.best = some b → Evaluated w'.trace (b.coordinates, b.value)) ∧
    (∀ b, o'.swarm.worst = some b → Evaluated w'.trace (b.coordinates, b.value)) := by
  have hth := (inv_history.runTo (PSO.always_true _ _) hr (history_fresh h0)).1.1
  refine ⟨?_, ?_, ?_, ?_⟩
  · intro b e a ht
    obtain ⟨h1, h2⟩ := hth b e a ht
    cases e with
    | generation ags best worst it =>
      obtain ⟨-, h3, h4⟩ := h2 _ _ _ _ rfl
      exact ⟨fun a ha => evaluated_of_goalsSince (h4 a ha),
        fun a ha => evaluated_of_goalsSince ((h1 _ rfl).2 a ha).1,
        fun a ha => evaluated_of_goalsSince (h3 a ha).1⟩
    | log _ _ s => exact fun a ha => evaluated_of_goalsSince ((h1 _ rfl).2 a ha).1
    | check s _ => exact fun a ha => evaluated_of_goalsSince ((h1 _ rfl).2 a ha).1
    | _ => trivial
  · intro p hp
    obtain ⟨h1, h2, h3, -⟩ := C40_personal o o' w w' ks pt h0 hr p hp
    exact ⟨evaluated_of_goalsSince h3, evaluated_of_goalsSince h1, evaluated_of_goalsSince h2⟩
  · intro b hb; exact evaluated_of_goalsSince ((C39_state o o' w w' ks pt h0 hr).2.1 b hb).1
  · intro b hb; exact evaluated_of_goalsSince ((C39_state o o' w w' ks pt h0 hr).2.2.2 b hb).1

/-- C22 (swarm): what a call returns was evaluated. -/
theorem C22_swarm_returned (o o' : Opt σ α) (w w' : World σ (List α)) (ks : List (Call σ α)) (rs : List (Ret α))
    (h0 : Fresh o w) (hr : run o ks w = .ok ((rs, o'), w'))
    (a : Solution (List α)) (ha : some (some a) ∈ rs) : Evaluated w'.trace a := by
  obtain ⟨-, hret⟩ := inv_history.run_ret (PSO.always_true _ _) hr (history_fresh h0)
  obtain ⟨p, tr, ext, hI, hb, ht⟩ := hret _ ha
  rw [ht]
  have := evaluated_of_goalsSince ((hI.2.1.state).2 a hb.symm).1
  unfold Evaluated at this ⊢
  exact List.mem_append_left _ this

theorem always_goal (g : List α → M σ F64) : ∀ (ks : List (Call σ α)) (c : Comps σ α), c.goal = g →
    Always (fun c => c.goal = g) c ks := by
  intro ks
  induction ks with
  | nil => intro c h; exact h
  | cons k ks ih =>
    intro c h
    refine ⟨h, ih _ ?_⟩
    cases k <;> exact h

theorem moves_goal {c : Comps σ α} {ns : List Nat} {s s' : PSO.Swarm α} {evs : List (Ev (List α))}
    (h : Moves c ns s evs s') : ∀ x v, Ev.goal x v ∈ evs → Returned (c.goal x) v := by
  induction h with
  | nil => simp
  | cons _ hm _ ih =>
    obtain ⟨m⟩ := hm
    intro x v hx
    rcases List.mem_append.1 hx with hx | hx
    · rw [m.events_ok] at hx
      simp only [List.mem_cons, reduceCtorEq, Ev.goal.injEq, List.not_mem_nil, or_false, false_or] at hx
      obtain ⟨rfl, rfl⟩ := hx
      exact m.goal_ok
    · exact ih x v hx

theorem inv_goal (g : List α → M σ F64) : Inv (σ := σ) (α := α) (fun c => c.goal = g)
    (fun _ tr => ∀ x v, Ev.goal x v ∈ tr → Returned (g x) v) where
  log := by intro p tr i k h x v hm; exact h x v (by simpa using hm)
  check := by intro p tr b h x v hm; exact h x v (by simpa using hm)
  begin := by
    rintro c p p' w w' rfl h hr x v hm
    obtain ⟨raws, xs, vs, ps, -, -, -, -, hps, -, ht⟩ := begin_ok hr
    rw [ht, List.cons_append, List.mem_append, List.mem_cons, List.mem_append, List.mem_map] at hm
    rcases hm with hm | hm | hm | ⟨p, hp, hm⟩
    · exact h x v hm
    · cases hm
    · obtain ⟨_, _, _, _, h'⟩ := mem_zipWith hm; cases h'
    · cases hm
      obtain ⟨n, hn, rfl⟩ := List.getElem_of_mem hp
      have := (List.forall₂_iff_get.1 hps).2 n (by rw [hps.length_eq]; exact hn) hn
      simp only [List.get_eq_getElem] at this
      have h2 : ps[n].coordinates = ((xs.zip vs)[n]'(by rw [hps.length_eq]; exact hn)).1 := by
        rw [this.2]; rfl
      rw [h2]; exact this.1
  core := by
    rintro c p p' w w' rfl h hr x v hm
    obtain ⟨evs, s1, hmv, -, ht⟩ := core_ok hr
    rw [ht, List.mem_append, List.mem_append] at hm
    rcases hm with hm | hm | hm
    · exact h x v hm
    · exact moves_goal hmv x v hm
    · simp at hm

/-- C22 (swarm): every recorded goal value is what the goal object returned. -/
theorem C22_swarm_goal (o o' : Opt σ α) (w w' : World σ (List α)) (ks : List (Call σ α)) (pt : Point)
    (h0 : Fresh o w) (hr : runTo o ks pt w = .ok (o', w')) (x : List α) (v : F64)
    (hm : Ev.goal x v ∈ w'.trace) : Returned (o.comps.goal x) v :=
  ((inv_goal o.comps.goal).runTo (always_goal _ _ _ rfl) hr (by rw [h0.2]; simp)).1 x v hm

/-- C22 (swarm): with a pure goal function `g`, every particle's value is `g` of its coordinates, and the pair returned
by `find_min` or `next_iterations` satisfies `value = g(point)`. -/
theorem C22_swarm_pure (g : List α → F64) (o o' : Opt σ α) (hg : o.comps.goal = fun x => pure (g x))
    (w w' : World σ (List α)) (ks : List (Call σ α)) (rs : List (Ret α))
    (h0 : Fresh o w) (hr : run o ks w = .ok ((rs, o'), w')) :
    (∀ p ∈ o'.swarm.particles, p.value = g p.coordinates ∧ p.bestValue = g p.bestCoords ∧
      p.worstValue = g p.worstCoords) ∧
    (∀ x v, some (some (x, v)) ∈ rs → v = g x) := by
  have hto : runTo o ks .done w = .ok (o', w') := by
    unfold runTo; exact M.bind_eq_ok.2 ⟨_, _, hr, rfl⟩
  have key : ∀ x v, Ev.goal x v ∈ w'.trace → v = g x := by
    intro x v hm
    obtain ⟨s, s', h⟩ := C22_swarm_goal o o' w w' ks .done h0 hto x v hm
    rw [hg] at h
    exact (M.pure_eq_ok.1 h).1.symm
  constructor
  · intro p hp
    obtain ⟨h1, h2, h3⟩ := (C22_swarm_evaluated o o' w w' ks .done h0 hto).2.1 p hp
    exact ⟨key _ _ h1, key _ _ h2, key _ _ h3⟩
  · intro x v hx
    exact key _ _ (C22_swarm_returned o o' w w' ks rs h0 hr (x, v) hx)

/-! ## C27 -/

/-- C27 (swarm): at every point of every history the goal has been called in the current run exactly `N * (k + 1)` times, `N` being
the number of particles and `k` the number of iterations done. -/
theorem C27_swarm (o o' : Opt σ α) (w w' : World σ (List α)) (ks : List (Call σ α)) (pt : Point)
    (h0 : Fresh o w) (hr : runTo o ks pt w = .ok (o', w')) :
    (goalsSince w'.trace).length = o'.swarm.particles.length * (o'.swarm.iteration + 1) := by
  obtain ⟨rows, h⟩ := C40_table o o' w w' ks pt h0 hr
  have : ∀ (n : Nat) (rows : List (List (Solution (List α)))), (∀ row ∈ rows, row.length = n) →
      rows.flatten.length = n * rows.length := by
    intro n rows
    induction rows with
    | nil => simp
    | cons r rows ih =>
      intro h
      rw [List.flatten_cons, List.length_append, ih (fun r hr => h r (by simp [hr])), h r (by simp), List.length_cons]
      ring
  rw [h.flat, this _ _ h.width, h.count]

theorem turns_goals {c : Comps σ α} : ∀ {k : Nat} {p p' : PSO.Swarm α} {w w' : World σ (List α)},
    turns c k p w = .ok (p', w') → p'.particles.length = p.particles.length ∧
      ∃ ext, w'.trace = w.trace ++ ext ∧ (goalsOf ext).length = p.particles.length * k := by
  intro k
  induction k with
  | zero =>
    intro p p' w w' h
    obtain ⟨rfl, rfl⟩ := M.pure_eq_ok.1 h
    exact ⟨rfl, [], by simp, by simp [goalsOf]⟩
  | succ k ih =>
    intro p p' w w' h
    obtain ⟨s', -, p1, w1, h1, h2⟩ := turns_succ_ok.1 h
    obtain ⟨hlen, ext, ht, hg⟩ := ih h2
    obtain ⟨w2, h3, h4⟩ := step_ok.1 h1
    obtain ⟨evs, s1, hm, rfl, ht2⟩ := core_ok h3
    obtain ⟨hg1, hall⟩ := hm.all
    have hl : s1.particles.length = p.particles.length := hm.same.2.2.2
    have hl' : s1.updateBest.updateWorst.nextIteration.particles.length = p.particles.length := by
      show s1.updateBest.updateWorst.particles.length = _
      rw [updateWorst_particles, updateBest_particles, hl]
    refine ⟨by rw [hlen, hl'], _, by rw [ht, GA.callLoggers_trace h4, ht2]; simp only [List.append_assoc]; rfl, ?_⟩
    have hlog : ∀ (k : LogKind) (s : AlgState (List α)) i n, goalsOf (GA.logBlock k s i n) = [] := by
      intro k s i n
      unfold GA.logBlock goalsOf
      simp
    have happ : ∀ a b : List (Ev (List α)), goalsOf (a ++ b) = goalsOf a ++ goalsOf b := by
      intro a b; unfold goalsOf; simp
    rw [happ, happ, happ, happ, hlog, hg1]
    simp [goalsOf] at hg ⊢
    rw [hg, hl, hl']
    ring

/-- C27 (swarm): one call of `find_min` with `N` particles that does `k` iterations calls the goal exactly `N * (k + 1)`
times, whatever happened before. -/
theorem C27_swarm_findMin (o o' : Opt σ α) (fuel : Nat) (w w' : World σ (List α)) (r : Option (Solution (List α)))
    (hr : findMin fuel o w = .ok ((r, o'), w')) : ∃ ext, w'.trace = w.trace ++ ext ∧
      (goalsOf ext).length = o'.swarm.particles.length * (o'.swarm.iteration + 1) := by
  obtain ⟨p, w1, w2, h1, h2, h3⟩ := findMin_ok.1 hr
  obtain ⟨p2, w3, w4, h4, h5, h6, -, rfl⟩ := nextIterations_ok.1 h3
  obtain ⟨k, w5, s', -, hk, hend, rfl⟩ := loop_turns h5
  obtain ⟨hlen, ext, ht, hg⟩ := turns_goals hk
  obtain ⟨hit, -⟩ := turns_spec hk
  obtain ⟨raws, xs, vs, ps, -, -, hl1, hl2, hps, rfl, ht1⟩ := begin_ok h1
  have hlog : ∀ (k : LogKind) (s : AlgState (List α)) i n, goalsOf (GA.logBlock k s i n) = [] := by
    intro k s i n
    unfold GA.logBlock goalsOf
    simp
  have happ : ∀ a b : List (Ev (List α)), goalsOf (a ++ b) = goalsOf a ++ goalsOf b := by
    intro a b; unfold goalsOf; simp
  have hmoved : ∀ raws xs : List (List α), goalsOf (List.zipWith Ev.moved raws xs) = [] := by
    intro raws
    induction raws with
    | nil => simp [goalsOf]
    | cons a raws ih =>
      intro xs
      cases xs with
      | nil => simp [goalsOf]
      | cons x xs => exact ih xs
  have hgl : goalsOf (ps.map (fun p => Ev.goal p.coordinates p.value)) = ps.map Particle.sol := by
    unfold goalsOf
    induction ps with
    | nil => rfl
    | cons p ps ih => simp [Particle.sol]
  have e1 := GA.callLoggers_trace h6
  have e2 := GA.callLoggers_trace h4
  have e3 := GA.callLoggers_trace h2
  refine ⟨_, by rw [e1]; simp only; rw [ht, e2, e3, ht1]; simp only [List.append_assoc]; rfl, ?_⟩
  simp only at hlen hit hg
  have hcr : ∀ l : List (Ev (List α)), goalsOf (.created raws :: l) = goalsOf l := fun l => rfl
  have hck : ∀ l : List (Ev (List α)), goalsOf (.check p2.state true :: l) = goalsOf l := fun l => rfl
  simp only [List.cons_append, hcr, List.nil_append, happ, hmoved, hgl, hlog, hck, List.length_append, hit, hlen, hg,
    List.length_map, List.length_nil]
  ring

/-! ## C67 -/

theorem inv_number : Inv (σ := σ) (α := α) (fun _ => True)
    (fun p tr => NumbersOK tr ∧ p.iteration = generationsSince tr) where
  log := by
    rintro p tr i k ⟨h1, h2⟩
    refine ⟨numbersOK_snoc.2 ⟨h1, h2⟩, ?_⟩
    rw [generationsSince_snoc, h2]
  check := by
    rintro p tr b ⟨h1, h2⟩
    refine ⟨numbersOK_snoc.2 ⟨h1, h2⟩, ?_⟩
    rw [generationsSince_snoc, h2]
  begin := by
    rintro c p p' w w' - ⟨h1, -⟩ hr
    obtain ⟨raws, xs, vs, ps, -, -, -, -, -, rfl, ht⟩ := begin_ok hr
    have hs : ∀ e ∈ List.zipWith Ev.moved raws xs ++ ps.map (fun p => Ev.goal p.coordinates p.value),
        Silent e ∧ ∀ ys, e ≠ .created ys := by
      intro e he
      simp only [List.mem_append, List.mem_map] at he
      rcases he with he | ⟨p, -, rfl⟩
      · obtain ⟨_, _, _, _, rfl⟩ := mem_zipWith he; exact ⟨trivial, fun _ h => by cases h⟩
      · exact ⟨trivial, fun _ h => by cases h⟩
    have ht' : w'.trace = (w.trace ++ [.created raws]) ++
        (List.zipWith Ev.moved raws xs ++ ps.map (fun p => Ev.goal p.coordinates p.value)) := by
      rw [ht]; simp
    rw [ht']
    constructor
    · apply numbersOK_silent (fun e he => (hs e he).1)
      exact numbersOK_snoc.2 ⟨h1, trivial⟩
    · rw [since_keep hs, generationsSince_snoc]
  core := by
    rintro c p p' w w' - ⟨h1, h2⟩ hr
    have hit := core_iteration hr
    obtain ⟨evs, s1, hm, -, ht⟩ := core_ok hr
    have hs : ∀ e ∈ evs, Silent e ∧ ∀ xs, e ≠ .created xs := by
      intro e he
      have := hm.events e he
      refine ⟨silent_of_moveEv this, ?_⟩
      rintro xs rfl
      exact this
    rw [ht, ← List.append_assoc]
    constructor
    · rw [numbersOK_snoc]
      refine ⟨numbersOK_silent (fun e he => (hs e he).1) h1, ?_⟩
      show p'.iteration = _
      rw [since_keep hs, ← h2, hit]
    · rw [generationsSince_snoc, since_keep hs, ← h2]; exact hit

/-- C67 (swarm): at every point of every history the iteration number is the number of iterations completed since the last
`find_min` created its swarm; this is also what stop checkers and loggers were shown at all earlier times. -/
theorem C67_swarm (o o' : Opt σ α) (w w' : World σ (List α)) (ks : List (Call σ α)) (pt : Point)
    (h0 : Fresh o w) (hr : runTo o ks pt w = .ok (o', w')) :
    NumbersOK w'.trace ∧ o'.swarm.iteration = generationsSince w'.trace :=
  (inv_number.runTo (PSO.always_true _ _) hr (by
    rw [h0.1, h0.2]
    refine ⟨?_, rfl⟩
    intro b e a h; simp at h)).1

end Verif.Props.Swarm
