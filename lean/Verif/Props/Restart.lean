import Verif.Proofs.Restart
import Verif.Props.SwarmShape
import Verif.Props.SwarmProgram
import Verif.Props.GeneticProgram
import Verif.Props.Mutating
import Verif.Props.Finds

/-!
# C111: calling find_min again is an independent trial
-/

namespace Verif.Props.Restart

open Verif Spec Estimate Verif.Restart

variable {T : Type} {m : Nat}

/-- The tape beside no other state of the components -/
abbrev tape : Lens (List Nat × Unit) (List Nat) := Lens.fst (List Nat) Unit

section

open GA

/-- C111 (genetic): how many of `n` calls of `find_min` return something good has the binomial distribution: the calls are independent trials, each of
which succeeds with the chance that a single call has. The components have no state of their own, and `find_min` does not panic. -/
theorem C111_genetic (hm : 0 < m) (o : Opt (List Nat × Unit) T) (hs : GA.Scan m tape o.comps) (fuel : Nat)
    (hr : ∀ s, ∃ r w', findMin fuel o ⟨s, []⟩ = .ok (r, w')) :
    ∃ K, ∀ n N N', n * K ≤ N → K ≤ N' → ∀ (good : Option (Solution T) → Bool) (k : Nat),
      chance (List.replicate N m) (fun t => GoodRuns good n k fuel o (t, ())) =
        binomial n k (chance (List.replicate N' m) (fun t => GoodRun good fuel o (t, ()))) := by
  have h1 : Tree m tape (fun t => answer (findMin fuel o ⟨(t, ()), []⟩)) := answer_tree (scans_findMin hs fuel ⟨([], ()), []⟩)
  obtain ⟨K, hK⟩ := tree_ends (I := fun _ => True) h1 fun t => by
    obtain ⟨r, w', h⟩ := hr (t, ())
    exact ⟨r.1, w'.user, by rw [h]; rfl, trivial⟩
  refine ⟨K, fun n N N' hN hN' good k => ?_⟩
  have h2 := hits_binomial (a := fun s => answer (findMin fuel o ⟨s, []⟩)) (good := good) hm hK hN hN' k
  simp only [← ga_runs good fuel n o _ []] at h2
  refine h2.trans ?_
  congr 2
  funext t
  refine propext ⟨fun ⟨b, s', h3, h4⟩ => ?_, fun ⟨a, o', w', h3, h4⟩ => ⟨a, w'.user, by rw [h3]; rfl, h4⟩⟩
  cases h5 : findMin fuel o ⟨(t, ()), []⟩ with
  | error e => rw [h5] at h3; cases h3
  | ok r =>
    obtain ⟨⟨a, o'⟩, w'⟩ := r
    rw [h5] at h3
    cases h3
    exact ⟨a, o', w', h5, h4⟩

end

section

open PSO

variable {α : Type} [FloatT α]

/-- C111 (swarm): the same for the swarm. -/
theorem C111_swarm (hm : 0 < m) (o : Opt (List Nat × Unit) α) (hs : PSO.Scan m tape o.comps) (fuel : Nat)
    (hr : ∀ s, ∃ r w', findMin fuel o ⟨s, []⟩ = .ok (r, w')) :
    ∃ K, ∀ n N N', n * K ≤ N → K ≤ N' → ∀ (good : Option (Solution (List α)) → Bool) (k : Nat),
      chance (List.replicate N m) (fun t => GoodSwarmRuns good n k fuel o (t, ())) =
        binomial n k (chance (List.replicate N' m) (fun t => GoodSwarmRun good fuel o (t, ()))) := by
  have h1 : Tree m tape (fun t => answer (findMin fuel o ⟨(t, ()), []⟩)) := answer_tree (scans_findMin hs fuel ⟨([], ()), []⟩)
  obtain ⟨K, hK⟩ := tree_ends (I := fun _ => True) h1 fun t => by
    obtain ⟨r, w', h⟩ := hr (t, ())
    exact ⟨r.1, w'.user, by rw [h]; rfl, trivial⟩
  refine ⟨K, fun n N N' hN hN' good k => ?_⟩
  have h2 := hits_binomial (a := fun s => answer (findMin fuel o ⟨s, []⟩)) (good := good) hm hK hN hN' k
  simp only [← pso_runs good fuel n o _ []] at h2
  refine h2.trans ?_
  congr 2
  funext t
  refine propext ⟨fun ⟨b, s', h3, h4⟩ => ?_, fun ⟨a, o', w', h3, h4⟩ => ⟨a, w'.user, by rw [h3]; rfl, h4⟩⟩
  cases h5 : findMin fuel o ⟨(t, ()), []⟩ with
  | error e => rw [h5] at h3; cases h3
  | ok r =>
    obtain ⟨⟨a, o'⟩, w'⟩ := r
    rw [h5] at h3
    cases h3
    exact ⟨a, o', w', h5, h4⟩

end

/-! ### How many restarts are needed -/

theorem binomial_zero (n : Nat) (p : ℚ) : binomial n 0 p = (1 - p) ^ n := by simp [binomial]

/-- C111 (genetic): if a single call finds a value of at most `bound` with the chance `p`, then `n` calls all miss it with the chance `(1 - p) ^ n`. -/
theorem C111_genetic_miss (hm : 0 < m) (o : GA.Opt (List Nat × Unit) T) (hs : GA.Scan m tape o.comps) (fuel : Nat)
    (hr : ∀ s, ∃ r w', GA.findMin fuel o ⟨s, []⟩ = .ok (r, w')) (bound : F64) :
    ∃ K, ∀ n N N', n * K ≤ N → K ≤ N' →
      chance (List.replicate N m) (fun t => GoodRuns (atMost bound) n 0 fuel o (t, ())) =
        (1 - chance (List.replicate N' m) (fun t => GoodRun (atMost bound) fuel o (t, ()))) ^ n := by
  obtain ⟨K, h⟩ := C111_genetic hm o hs fuel hr
  exact ⟨K, fun n N N' hN hN' => by rw [h n N N' hN hN', binomial_zero]⟩

/-- C111 (swarm): the same for the swarm. -/
theorem C111_swarm_miss {α : Type} [FloatT α] (hm : 0 < m) (o : PSO.Opt (List Nat × Unit) α) (hs : PSO.Scan m tape o.comps) (fuel : Nat)
    (hr : ∀ s, ∃ r w', PSO.findMin fuel o ⟨s, []⟩ = .ok (r, w')) (bound : F64) :
    ∃ K, ∀ n N N', n * K ≤ N → K ≤ N' →
      chance (List.replicate N m) (fun t => GoodSwarmRuns (atMost bound) n 0 fuel o (t, ())) =
        (1 - chance (List.replicate N' m) (fun t => GoodSwarmRun (atMost bound) fuel o (t, ()))) ^ n := by
  obtain ⟨K, h⟩ := C111_swarm hm o hs fuel hr
  exact ⟨K, fun n N N' hN hN' => by rw [h n N N' hN hN', binomial_zero]⟩

/-! ### The library's components -/

section

variable {f : Fmt} {ω : Type} {L : Lens ω (List Nat)} {R : Rng ω}

theorem classic_scans {α : Type} [FloatT α] (hR : R.OnTape L) (phiP phiG : α) (s : PSO.Swarm α) (p : PSO.Particle α) :
    Scans m L (Velocity.classic R phiP phiG s p) :=
  (Scans.unwrap _).bind fun _ => .mapL (fun _ => (Scans.draw01 hR _).bind fun _ => (Scans.draw01 hR _).bind fun _ => (Scans.index _ _).bind fun _ =>
    (Scans.index _ _).bind fun _ => (Scans.index _ _).bind fun _ => (Scans.index _ _).bind fun _ => .pure _) _

/-- The library's swarm components take their random numbers one after the other. -/
theorem swarm_scan (hR : R.OnTape L) {d n : Nat} {c : PSO.Comps ω (Fl f)} (h : Swarm.LibComps R d n c) (hg : ∀ x, Scans m L (c.goal x))
    (hs : ∀ s, Scans m L (c.stop s)) (hl : ∀ l ∈ c.loggers, l.Scans m L) : PSO.Scan m L c where
  goal := hg
  stop := hs
  coordInit := by
    have h1 := h.coordInit
    generalize c.coordInit = i at h1 ⊢
    cases h1 with
    | random ivs _ _ => exact .randomInit hR _ _
    | zero => exact .zeroInit _ _
  velInit := by
    have h1 := h.velInit
    generalize c.velInit = i at h1 ⊢
    cases h1 with
    | random ivs _ _ => exact .randomInit hR _ _
    | zero => exact .zeroInit _ _
  velCalc s p := by
    have h1 := h.velCalc
    generalize c.velCalc = i at h1 ⊢
    cases h1 with
    | classic phiP phiG => exact classic_scans hR _ _ _ _
    | canonical c => exact .canonical hR _ _ _
    | negative c => exact .negReinf hR _ _ _
    | inertia phiP phiG get hget =>
      refine .inertia hR _ _ (fun i => ?_) _ _
      cases hget <;> exact .pure _
  postVel hk hh x := by
    cases h.postVel hk hh with
    | dimensions vMax _ => exact (Scans.assert _).bind fun _ => .pure _
    | abs vMax => exact .maxVelocityAbs _ _
  postMove hk hh x := by
    cases h.postMove hk hh with
    | boundary ivs _ => exact .moveToBoundary _ _
    | teleport ivs p t s s' _ _ => exact .teleport hR _ _
  loggers := hl

/-- The library's genetic components take their random numbers one after the other. -/
theorem genetic_scan (hR : R.OnTape L) {size : Nat} {ivs : List (Fl f × Fl f)} {c : GA.Comps ω (List (Fl f))} (h : LibProgram R size ivs c)
    (hg : ∀ x, Scans m L (c.goal x)) (hs : ∀ s, Scans m L (c.stop s)) (hl : ∀ l ∈ c.loggers, l.Scans m L) : GA.Scan m L c where
  goal := hg
  stop := hs
  creator := by rw [h.creator]; exact .randomCreator hR _
  pairing p := by
    rcases h.pairing with h1 | ⟨a, b, h1⟩ <;> rw [h1]
    · exact (Scans.uniformCheck _).bind fun _ => .replicate ((Scans.uniformNat hR _ _).bind fun _ => (Scans.uniformNat hR _ _).bind fun _ => .pure _) _
    · exact .tournament hR _ _
  cross xs := by
    obtain ⟨single, h1, h2⟩ := h.cross
    rw [h2]
    refine .vecCrossAllGenes (fun ys => ?_) xs
    cases h1 with
    | bitwise p =>
      exact (Scans.assert _).bind fun _ => (Scans.uniformNat hR _ _).bind fun _ => (Scans.index _ _).bind fun _ => (Scans.index _ _).bind fun _ =>
        (Scans.ofExcept _).bind fun _ => .pure _
    | exponent p exp2 => exact .floatCrossExp p hR exp2 _
    | mean => exact (Scans.assert _).bind fun _ => .pure _
    | geometric F => exact (Scans.assert _).bind fun _ => .pure _
  mutation x := by
    obtain ⟨prob, count, h1⟩ := h.mutation
    rw [h1]
    exact .vecMutation hR _ (fun x => .bitwise hR _ _) _
  selections s hsel p := by
    obtain ⟨rest, h1, h2⟩ := h.selections
    rw [h1] at hsel
    rcases List.mem_cons.1 hsel with rfl | h3
    · exact .killFitnessNaN _
    · cases h2 s h3 with
      | limitPopulation n _ => exact .limitPopulation _ _
      | killFitnessNaN => exact .killFitnessNaN _
      | checkChromoInterval => exact (Scans.mapL (fun _ => (Scans.assert _).bind fun _ => .pure _) _).bind fun _ => .pure _
  preBirths b hb p xs := by
    rw [h.preBirths, List.mem_singleton] at hb
    rw [hb]
    exact .preBirthInterval _ _ _
  loggers := hl

end

section

variable {f : Fmt} (dr : Draws)

/-- C111: a swarm put together from the library, with a bounded number of iterations: its restarts are independent. The goal, the stop checker and the
loggers are the user's, they keep no state of their own. -/
theorem C111_swarm_library (hm : 0 < m) (hf : Fmt.Embeds f Fmt.f64) (d n last : Nat) (o : PSO.Opt (List Nat × Unit) (Fl f))
    (h : Swarm.LibComps (dr.beside Unit) d n o.comps) (hg : ∀ x, Scans m tape (o.comps.goal x)) (hs : ∀ s, Scans m tape (o.comps.stop s))
    (hl : ∀ l ∈ o.comps.loggers, l.Scans m tape) (hb : Bounding last o.comps.stop) (fuel : Nat) (hfuel : last < fuel) :
    ∃ K, ∀ n N N', n * K ≤ N → K ≤ N' → ∀ (good : Option (Solution (List (Fl f))) → Bool) (k : Nat),
      chance (List.replicate N m) (fun t => GoodSwarmRuns good n k fuel o (t, ())) =
        binomial n k (chance (List.replicate N' m) (fun t => GoodSwarmRun good fuel o (t, ()))) :=
  C111_swarm hm o (swarm_scan (dr.onTape Unit) h hg hs hl) fuel fun s => by
    obtain ⟨r, o', w', h1, -⟩ := Swarm.C48_returns d n last o (Swarm.C48_library _ hf d n _ h) hb ⟨s, []⟩ fuel hfuel
    exact ⟨_, _, h1⟩

/-- C111: a genetic optimizer put together from the library, with a bounded number of generations: its restarts are independent. -/
theorem C111_genetic_library (hm : 0 < m) (hf : Fmt.Embeds f Fmt.f64) (size last : Nat) (ivs : List (Fl f × Fl f))
    (o : GA.Opt (List Nat × Unit) (List (Fl f))) (h : LibProgram (dr.beside Unit) size ivs o.comps)
    (hg : ∀ x, Scans m tape (o.comps.goal x)) (hs : ∀ s, Scans m tape (o.comps.stop s)) (hl : ∀ l ∈ o.comps.loggers, l.Scans m tape)
    (hb : Bounding last o.comps.stop) (hfirst : ¬ Returned (o.comps.stop ⟨none, 0⟩) true) (fuel : Nat) (hfuel : last < fuel) :
    ∃ K, ∀ n N N', n * K ≤ N → K ≤ N' → ∀ (good : Option (Solution (List (Fl f))) → Bool) (k : Nat),
      chance (List.replicate N m) (fun t => GoodRuns good n k fuel o (t, ())) =
        binomial n k (chance (List.replicate N' m) (fun t => GoodRun good fuel o (t, ()))) :=
  C111_genetic hm o (genetic_scan (dr.onTape Unit) h hg hs hl) fuel fun s => by
    obtain ⟨x, v, o', w', h1, -⟩ := C71_find_min _ hf size ivs o h last hb hfirst fuel hfuel ⟨s, []⟩
    exact ⟨_, _, h1⟩

end

/-! ### Concrete optimizers -/

section

open PSO

/-- One particle, which is put at 0 or 1 by a throw of a coin and does not move; the goal is the coordinate. -/
def tossed : Opt (List Nat × Unit) F64 :=
  PSO.new (fun x => pure (x.headD Fl.one)) (Stop.maxIterations 0)
    (fun s => .ok ([[if s.1.headD 0 % 2 = 0 then Fl.zero else Fl.one]], (s.1.tail, s.2))) (pure [[Fl.zero]]) (fun _ p => pure p.velocity)

theorem tossed_scan : PSO.Scan m tape tossed.comps where
  goal _ := .pure _
  stop _ := .pure _
  coordInit w := .draw fun k _ => .ok [[if k % 2 = 0 then Fl.zero else Fl.one]] w fun _ => rfl
  velInit := .pure _
  velCalc _ _ := .pure _
  postVel _ h := by cases h
  postMove _ h := by cases h
  loggers _ h := by cases h

theorem tossed_run (c : F64) (s : List Nat × Unit) (hc : (if s.1.headD 0 % 2 = 0 then Fl.zero else Fl.one) = c) :
    ∃ o' w', findMin 1 tossed ⟨s, []⟩ = .ok ((some ([c], c), o'), w') := by
  subst hc
  exact ⟨_, _, rfl⟩

theorem tossed_good (t : List Nat) : GoodSwarmRun (atMost Fl.zero) 1 tossed (t, ()) ↔ t.headD 0 % 2 = 0 := by
  have h1 : (Fl.zero : F64).le Fl.zero = true := by decide +kernel
  have h2 : (Fl.one : F64).le Fl.zero = false := by decide +kernel
  constructor
  · rintro ⟨a, o', w', h, hg⟩
    by_contra hne
    obtain ⟨o2, w2, h3⟩ := tossed_run Fl.one (t, ()) (if_neg hne)
    rw [h3] at h
    cases h
    rw [atMost, h2] at hg
    cases hg
  · intro hk
    obtain ⟨o2, w2, h3⟩ := tossed_run Fl.zero (t, ()) (if_pos hk)
    exact ⟨_, _, _, h3, h1⟩

/-- In `n` throws the coin never shows 0 with the chance `1 / 2 ^ n`. -/
theorem C111_example : ∃ K, ∀ n N, n * K ≤ N →
    chance (List.replicate N 2) (fun t => GoodSwarmRuns (atMost Fl.zero) n 0 1 tossed (t, ())) = (1 / 2) ^ n := by
  obtain ⟨K, h⟩ := C111_swarm_miss (m := 2) (by omega) tossed tossed_scan 1 (fun s => by
    obtain ⟨o', w', h⟩ := tossed_run _ s rfl
    exact ⟨_, _, h⟩) Fl.zero
  refine ⟨K, fun n N hN => ?_⟩
  rw [h n N (K + 1) hN (by omega)]
  congr 1
  simp only [tossed_good]
  rw [List.replicate_succ, chance_cons]
  have h1 : chance (List.replicate K 2) (fun t => ((0 :: t : List Nat).headD 0) % 2 = 0) = 1 := by
    rw [show (fun t => ((0 :: t : List Nat).headD 0) % 2 = 0) = fun _ => True from funext fun t => by simp]
    rw [chance_mean]
    simpa using mean_constant (by omega) 1 K
  have h2 : chance (List.replicate K 2) (fun t => ((1 :: t : List Nat).headD 0) % 2 = 0) = 0 := by
    rw [show (fun t => ((1 :: t : List Nat).headD 0) % 2 = 0) = fun _ => False from funext fun t => by simp]
    rw [chance_mean]
    simpa using mean_constant (by omega) 0 K
  rw [Finset.sum_range_succ, Finset.sum_range_one, h1, h2]
  norm_num

/-- C111, the condition is needed: with a `GoalNotChange` a run need not find what it finds with a new one. From 10 and, with a new object, from 3 the
swarm comes to 0; after the run from 10 the run from 3 stops before its first iteration. -/
theorem C111_state_witness :
    let new := Stop.GNC.new 2 (Fl.ofRat false 5 2)
    M.okAnd (PSO.run (gncSwarm .release) [.findMin 10] ⟨([Fl.ofNat 10], new), []⟩) (fun r _ => goodAnswers (atMost Fl.zero) r.1 == 1) = true ∧
    M.okAnd (PSO.run (gncSwarm .release) [.findMin 10] ⟨([Fl.ofNat 3], new), []⟩) (fun r _ => goodAnswers (atMost Fl.zero) r.1 == 1) = true ∧
    M.okAnd (PSO.run (gncSwarm .release) [.findMin 10, .findMin 10] ⟨([Fl.ofNat 10, Fl.ofNat 3], new), []⟩)
      (fun r _ => goodAnswers (atMost Fl.zero) r.1 == 1) = true := by
  refine ⟨?_, ?_, ?_⟩ <;> decide +kernel

end

/-- The swarm of C104 meets the conditions: in one dimension, with RandomTeleport. -/
example (last : Nat) : ∃ K, ∀ n N N', n * K ≤ N → K ≤ N' → ∀ (good : Option (Solution (List F64)) → Bool) (k : Nat),
    chance (List.replicate N 2) (fun t => GoodSwarmRuns good n k (last + 1) (Swarm.demoFinds last) (t, ())) =
      binomial n k (chance (List.replicate N' 2) (fun t => GoodSwarmRun good (last + 1) (Swarm.demoFinds last) (t, ()))) := by
  have h := Swarm.demoFinds_lib last
  refine C111_swarm_library halves (by omega) (Fmt.embeds_refl _) 1 3 last (Swarm.demoFinds last)
    { coordInit := h.coordInit, velInit := h.velInit, velCalc := h.velCalc, postVel := h.postVel, postMove := ?_, stop := .maxIterations last,
      loggers := ?_, goal := fun x _ s => ⟨_, _, rfl, trivial⟩ } (fun _ => .pure _) (fun _ => .pure _) ?_ (maxIterations_bounding last) (last + 1) (by omega)
  · intro hk hh
    simp only [Swarm.demoFinds, List.mem_cons, List.not_mem_nil, or_false] at hh
    rcases hh with rfl | rfl
    · obtain ⟨ivs, p, h1, h2⟩ := h.teleport
      exact .teleport [(Fl.zero, Fl.one)] (Fl.ofRat false 1 2) _ ([], ()) ([], ()) rfl (by
        have h : (Hooks.Teleport.new [((Fl.zero : F64), Fl.one)] (Fl.ofRat false 1 2) ()).isOk = true := by decide +kernel
        unfold Hooks.Teleport.new at h ⊢
        rfl)
    · exact .boundary _ rfl
  · intro l hl
    obtain rfl : l = Logging.silent := by simpa [Swarm.demoFinds, PSO.new] using hl
    exact .silent
  · intro l hl
    obtain rfl : l = Logging.silent := by simpa [Swarm.demoFinds, PSO.new] using hl
    exact fun s => ⟨.pure _, .pure _, .pure _, .pure _⟩

/-- The genetic optimizer of C109 meets the conditions. -/
example (last : Nat) (h0 : 0 < last) : ∃ K, ∀ n N N', n * K ≤ N → K ≤ N' → ∀ (good : Option (Solution (List F64)) → Bool) (k : Nat),
    chance (List.replicate N 64) (fun t => GoodRuns good n k (last + 1) (Mutating.demo last) (t, ())) =
      binomial n k (chance (List.replicate N' 64) (fun t => GoodRun good (last + 1) (Mutating.demo last) (t, ()))) := by
  refine C111_genetic_library halves (by omega) (Fmt.embeds_refl _) 4 last _ (Mutating.demo last) (Mutating.demo_lib last).program (fun _ => .pure _)
    (fun _ => .pure _) ?_ (maxIterations_bounding last) ?_ (last + 1) (by omega)
  · intro l hl
    simp [Mutating.demo, GA.new] at hl
  · rintro ⟨s, s', h⟩
    have := (M.pure_eq_ok.1 h).1
    simp at this
    omega

end Verif.Props.Restart
