import Verif.Proofs.Initial
import Verif.Proofs.InitialGA
import Verif.Proofs.InitialChance
import Verif.Props.Finds
import Verif.Props.SwarmShape
import Verif.Props.GeneticProgram
import Verif.Props.GeneticExamples

/-!
# C108: what the random initial points find
-/

namespace Verif.Props.Initial

open Verif Spec Spec.Swarm Creation

variable {σ τ T : Type} {f : Fmt} {m : Nat}

/-! ### The swarm -/

section Swarm

open PSO

theorem runTo_findMin {α : Type} [FloatT α] {fuel : Nat} {o o' : Opt σ α} {r : Option (Solution (List α))} {w w' : World σ (List α)}
    (h : findMin fuel o w = .ok ((r, o'), w')) : runTo o [.findMin fuel] .done w = .ok (o', w') := by
  unfold runTo
  refine M.bind_eq_ok.2 ⟨([some r], o'), w', ?_, rfl⟩
  refine M.bind_eq_ok.2 ⟨(some r, o'), w', ?_, rfl⟩
  exact M.bind_eq_ok.2 ⟨(r, o'), w', h, rfl⟩

/-- C108: a fresh swarm optimizer whose `n` initial points are drawn at random finds, with a chance of at least `1 - (1 - c) ^ n`, a solution that
is not worse than the goal at a point of the region: whatever the region, the goal, the velocity calculator and the stop checker are. `c` is the
chance that one point is drawn in the region. The post-move hooks must not lead out of the region. -/
theorem C108_swarm (dr : Draws) (hf : Fmt.Embeds f Fmt.f64) (hm : 0 < m) (ivs : List (Fl f × Fl f)) (hiv : FiniteIncreasing ivs) (n : Nat)
    (A : List (Fl f) → Prop) (o : Opt (List Nat × τ) (Fl f)) (h0 : o.swarm = Swarm.empty)
    (hi : o.comps.coordInit = randomInit (dr.beside τ) ivs n)
    (hk : ∀ h ∈ o.comps.postMove, ∀ x y, A x → Returned (h x) y → A y) (u : τ) (fuel L : Nat) (hL : n * ivs.length ≤ L) :
    1 - (1 - initialShare dr m ivs A) ^ n ≤ chance (List.replicate L m) (fun t => ∀ r o' w',
      findMin fuel o ⟨(t, u), []⟩ = .ok ((r, o'), w') → ∃ a, r = some a ∧ AsGoodAs A w'.trace a) := by
  refine (Finds.chance_randomInit dr hf hm hiv A n u L hL).trans (Finds.chance_mono fun t ht r o' w' h => ?_)
  obtain ⟨xs, rest, hx, hA⟩ := ht
  obtain ⟨xs', s', h1, h2⟩ := findMin_created h
  rw [hi] at h1
  have h1 : randomInit (dr.beside τ) ivs n (t, u) = .ok (xs', s') := h1
  rw [hx] at h1
  cases h1
  have hinv := (inv_region A).findMin hk h (by rintro ⟨x, hx, -⟩; simp [lastCreated] at hx)
  obtain ⟨a, ha, hAa⟩ := hinv (by rw [h2]; exact hA)
  have hto := runTo_findMin h
  obtain ⟨g1, g2, -, -⟩ := Props.Swarm.C39_state o o' _ w' _ .done ⟨h0, rfl⟩ hto
  obtain ⟨k, sts, ext, p0, wb, -, -, -, -, -, -, hr, -⟩ := PSO.findMin_spec h
  cases hb : o'.swarm.best with
  | none => rw [g1.1 hb] at ha; simp at ha
  | some b =>
    refine ⟨(b.coordinates, b.value), by rw [hr]; unfold PSO.Swarm.state; rw [hb]; rfl, a.1, a.2, hAa, evaluated_of_goalsSince ha, fun hfin => ?_⟩
    rcases (g2 b hb).2 _ ha with ⟨-, -, hle⟩ | hn
    · exact hle
    · rw [hfin] at hn; cases hn

/-- C108, a swarm put together from the library and a stop checker that stops at iteration `last` at the latest: if the goal is at most `bound`
in the region, then `find_min` returns a value of at most `bound` with this chance. -/
theorem C108_swarm_below (dr : Draws) (hf : Fmt.Embeds f Fmt.f64) (hm : 0 < m) (ivs : List (Fl f × Fl f)) (hiv : FiniteIncreasing ivs) (n : Nat)
    (A : List (Fl f) → Prop) (o : Opt (List Nat × τ) (Fl f)) (h0 : o.swarm = Swarm.empty)
    (hi : o.comps.coordInit = randomInit (dr.beside τ) ivs n)
    (hk : ∀ h ∈ o.comps.postMove, ∀ x y, A x → Returned (h x) y → A y)
    (hlib : Props.Swarm.LibComps (dr.beside τ) ivs.length n o.comps) (last : Nat) (hs : Bounding last o.comps.stop) (bound : F64)
    (hb : ∀ x v, A x → Returned (o.comps.goal x) v → v.isFinite = true ∧ v.le bound = true)
    (u : τ) (fuel : Nat) (hfuel : last < fuel) (L : Nat) (hL : n * ivs.length ≤ L) :
    1 - (1 - initialShare dr m ivs A) ^ n ≤ chance (List.replicate L m) (fun t => ∃ a o' w',
      findMin fuel o ⟨(t, u), []⟩ = .ok ((some a, o'), w') ∧ a.2.le bound = true) := by
  refine (C108_swarm dr hf hm ivs hiv n A o h0 hi hk u fuel L hL).trans (Finds.chance_mono fun t ht => ?_)
  obtain ⟨r, o', w', h, -⟩ := Props.Swarm.C48_returns ivs.length n last o (Props.Swarm.C48_library _ hf _ n _ hlib) hs ⟨(t, u), []⟩ fuel hfuel
  obtain ⟨a, rfl, x, v, hA, hv, hle⟩ := ht r o' w' h
  have hret := Props.Swarm.C22_swarm_goal o o' _ w' _ .done ⟨h0, rfl⟩ (runTo_findMin h) x v hv
  obtain ⟨b1, b2⟩ := hb x v hA hret
  exact ⟨a, o', w', h, Fl.le_trans (hle b1) b2⟩

/-- C108: MoveToBoundary does not lead out of a region inside its intervals. -/
theorem C108_boundary (ivs : List (Fl f × Fl f)) (hiv : FiniteIncreasing ivs) (A : List (Fl f) → Prop) (hA : ∀ x, A x → InBox ivs x) (x y : List (Fl f)) (hx : A x)
    (h : Returned (Hooks.moveToBoundary (σ := σ) ivs x) y) : A y := by
  obtain ⟨s, s', h⟩ := h
  unfold Hooks.moveToBoundary at h
  obtain ⟨u, s1, -, h⟩ := M.bind_eq_ok.1 h
  obtain ⟨rfl, -⟩ := M.pure_eq_ok.1 h
  rw [Finds.clamp_inBox (fun iv h => by rw [Fl.le_of_lt (hiv iv h).2.2, (hiv iv h).1, (hiv iv h).2.1]; rfl) (hA x hx)]
  exact hx

end Swarm

/-! ### The genetic search -/

section Genetic

open GA

theorem runTo_findMin' {fuel : Nat} {o o' : Opt σ T} {r : Option (Solution T)} {w w' : World σ T}
    (h : findMin fuel o w = .ok ((r, o'), w')) : runTo o [.findMin fuel] .done w = .ok (o', w') := by
  unfold runTo
  refine M.bind_eq_ok.2 ⟨([some r], o'), w', ?_, rfl⟩
  refine M.bind_eq_ok.2 ⟨(some r, o'), w', ?_, rfl⟩
  exact M.bind_eq_ok.2 ⟨(r, o'), w', h, rfl⟩

/-- C108: with selections that keep the best individual, the solution that `find_min` returns after a generation or more is not worse than any
finite value that was evaluated since the population was created, after any history. -/
theorem C108_best (o o' : Opt σ T) (hk : ∀ sel ∈ o.comps.selections, KeepsBest sel) (fuel : Nat) (r : Option (Solution T))
    (w w' : World σ T) (h : findMin fuel o w = .ok ((r, o'), w')) (hit : o'.pop.iteration ≠ 0)
    (x : T) (v : F64) (hx : (x, v) ∈ goalsSince w'.trace) (hv : v.isFinite = true) : ∃ a, r = some a ∧ a.2.le v = true := by
  obtain ⟨p, w1, w2, h1, h2, h3⟩ := findMin_ok.1 h
  have hh := inv_holds.nextIterations (o := { o with pop := p }) hk h3 (inv_holds.callLoggers h2 (holds_begin h1))
  obtain ⟨p1, w3, w4, -, -, -, hr, ho⟩ := nextIterations_ok.1 h3
  obtain ⟨j, hj, jf, hle⟩ := hh.values _ hx hv
  obtain ⟨b, hb, hall⟩ := hh.best hit (List.ne_nil_of_mem hj)
  refine ⟨b.sol, ?_, Fl.le_trans (hall j hj (Fl.isNan_of_isFinite jf)) hle⟩
  rw [ho] at hb
  have hb : p1.best = some b := hb
  rw [hr]
  unfold Population.state
  rw [hb]
  rfl

/-- C108: a fresh genetic optimizer with RandomCreator and selections that keep the best individual finds, with a chance of at least
`1 - (1 - c) ^ n`, a solution that is not worse than the goal at a point of the region, whatever the region, the goal, the pairing, the crossing, the
mutation and the stop checker are, if it ends after a generation or more. -/
theorem C108_genetic (dr : Draws) (hf : Fmt.Embeds f Fmt.f64) (hm : 0 < m) (ivs : List (Fl f × Fl f)) (hiv : FiniteIncreasing ivs) (n : Nat)
    (A : List (Fl f) → Prop) (o : Opt (List Nat × τ) (List (Fl f))) (hi : o.comps.creator = RandomCreator.create (dr.beside τ) ⟨n, ivs⟩)
    (hk : ∀ sel ∈ o.comps.selections, KeepsBest sel) (u : τ) (fuel L : Nat) (hL : n * ivs.length ≤ L) :
    1 - (1 - initialShare dr m ivs A) ^ n ≤ chance (List.replicate L m) (fun t => ∀ r o' w',
      findMin fuel o ⟨(t, u), []⟩ = .ok ((r, o'), w') → o'.pop.iteration ≠ 0 →
        ∃ x v, A x ∧ Ev.goal x v ∈ w'.trace ∧ (v.isFinite = true → ∃ a, r = some a ∧ a.2.le v = true)) := by
  refine (Finds.chance_randomCreator dr hf hm hiv A n u L hL).trans (Finds.chance_mono fun t ht r o' w' h hit => ?_)
  obtain ⟨xs, rest, hx, x, hm, hA⟩ := ht
  obtain ⟨xs', s', h1, h2⟩ := findMin_created h
  rw [hi] at h1
  have h1 : RandomCreator.create (dr.beside τ) ⟨n, ivs⟩ (t, u) = .ok (xs', s') := h1
  rw [hx] at h1
  cases h1
  have hinv := inv_initial.findMin trivial h (by simp [lastCreated])
  obtain ⟨v, hv⟩ := hinv x (by rw [h2]; exact hm)
  have hev : Ev.goal x v ∈ w'.trace := evaluated_of_goalsSince hv
  exact ⟨x, v, hA, hev, C108_best o o' hk fuel r _ w' h hit x v hv⟩

/-- C108, a genetic optimizer put together from the library: if the goal is at most `bound` in the region, then `find_min` returns a value of at
most `bound` with this chance. The stop checker answers `true` from iteration `last` on but not before the first generation. -/
theorem C108_genetic_below (dr : Draws) (hf : Fmt.Embeds f Fmt.f64) (hm : 0 < m) (ivs : List (Fl f × Fl f)) (n : Nat)
    (A : List (Fl f) → Prop) (o : Opt (List Nat × τ) (List (Fl f))) (h0 : o.pop = Population.empty)
    (hlib : LibProgram (dr.beside τ) n ivs o.comps) (hk : ∀ sel ∈ o.comps.selections, KeepsBest sel)
    (last : Nat) (hs : Bounding last o.comps.stop) (hfirst : ¬ Returned (o.comps.stop ⟨none, 0⟩) true) (bound : F64)
    (hb : ∀ x v, A x → Returned (o.comps.goal x) v → v.isFinite = true ∧ v.le bound = true)
    (u : τ) (fuel : Nat) (hfuel : last < fuel) (L : Nat) (hL : n * ivs.length ≤ L) :
    1 - (1 - initialShare dr m ivs A) ^ n ≤ chance (List.replicate L m) (fun t => ∃ a o' w',
      findMin fuel o ⟨(t, u), []⟩ = .ok ((some a, o'), w') ∧ a.2.le bound = true) := by
  refine (C108_genetic dr hf hm ivs hlib.intervals n A o hlib.creator hk u fuel L hL).trans (Finds.chance_mono fun t ht => ?_)
  obtain ⟨y, z, o', w', h, -, -, -, hit, -⟩ := C71_find_min (dr.beside τ) hf n ivs o hlib last hs hfirst fuel hfuel ⟨(t, u), []⟩
  obtain ⟨x, v, hA, hv, hle⟩ := ht _ o' w' h (by omega)
  have hret := C22_goal o o' _ w' _ .done ⟨h0, rfl⟩ (runTo_findMin' h) x v hv
  obtain ⟨b1, b2⟩ := hb x v hA hret
  obtain ⟨a, ha, hle⟩ := hle b1
  cases ha
  exact ⟨(y, z), o', w', h, Fl.le_trans hle b2⟩

end Genetic

/-! ### The chance of a region -/

/-- C108: the chance of a box-like region is the product of the chances of the coordinates. -/
theorem C108_region (dr : Draws) : ∀ (ivs : List (Fl f × Fl f)) (conds : List (Fl f → Prop)), conds.length = ivs.length →
    initialShare dr m ivs (List.Forall₂ (fun P x => P x) conds) =
      (List.zipWith (fun P iv => share m fun k => P (geneOf dr iv k)) conds ivs).prod
  | [], [], _ => by
    unfold initialShare
    rw [List.length_nil, List.replicate_zero]
    have e : initialPoint dr ([] : List (Fl f × Fl f)) [] = [] := rfl
    classical
    rw [chance_eq, cnt_nil, e]
    simp
  | iv :: ivs, P :: conds, h => by
    classical
    rw [List.zipWith_cons_cons, List.prod_cons, ← C108_region dr ivs conds (by simpa using h)]
    unfold initialShare share
    rw [← chance_append [m] (List.replicate ivs.length m)]
    refine chance_congr fun t ht => ?_
    rw [List.length_cons, List.replicate_succ] at ht
    cases ht with
    | @cons k _ t _ hk ht =>
      show List.Forall₂ (fun P x => P x) (P :: conds) (geneOf dr iv k :: initialPoint dr ivs t) ↔ _
      rw [List.forall₂_cons]
      exact Iff.rfl

/-! ### Concrete runs -/

/-- The interval from 0 to 1 -/
def unit : List (F64 × F64) := [(Fl.zero, Fl.one)]

theorem unit_ok : FiniteIncreasing unit := by
  intro iv hiv
  rw [unit, List.mem_singleton] at hiv
  subst hiv
  decide +kernel

/-- The region that consists of the point 1/2 -/
def middle : List F64 → Prop := List.Forall₂ (fun P x => P x) [fun x => x = Fl.ofRat false 1 2]

theorem middle_inBox (x : List F64) (h : middle x) : InBox unit x := by
  cases h with
  | cons h1 h2 =>
    cases h2
    rw [h1]
    exact .cons (by unfold InInterval; decide +kernel) .nil

theorem middle_share : initialShare halves 2 unit middle = 1 / 2 := by
  classical
  have h2 : ∀ k, k < 2 → (geneOf halves ((Fl.zero : F64), Fl.one) k = Fl.ofRat false 1 2 ↔ k = 1) := by
    intro k hk
    obtain rfl | rfl : k = 0 ∨ k = 1 := by omega
    · exact ⟨fun h => absurd h (by decide +kernel), fun h => by omega⟩
    · exact ⟨fun _ => rfl, fun _ => by decide +kernel⟩
  unfold middle unit
  rw [C108_region halves _ _ rfl]
  simp only [List.zipWith_cons_cons, List.zipWith_nil_left, List.prod_cons, List.prod_nil, mul_one]
  rw [share_eq, Finset.filter_congr (q := fun k => k = 1) fun k hk => h2 k (Finset.mem_range.1 hk)]
  rw [show (Finset.range 2).filter (fun k => k = 1) = {1} by decide]
  norm_num

/-- Three particles on the paraboloid in one dimension, with MoveToBoundary -/
def demoSwarm (last : Nat) : PSO.Opt (List Nat × Unit) F64 :=
  let R := halves.beside Unit
  let o := PSO.new (fun x => pure (TestFunc.paraboloid x)) (Stop.maxIterations last) (Creation.randomInit R unit 3)
    (Creation.zeroInit 1 3) (Velocity.classic R Fl.one Fl.one)
  { o with comps := { o.comps with postMove := [Hooks.moveToBoundary unit] } }

theorem demoSwarm_lib (last : Nat) : Props.Swarm.LibComps (halves.beside Unit) 1 3 (demoSwarm last).comps where
  coordInit := .random unit rfl unit_ok
  velInit := .zero
  velCalc := .classic _ _
  postVel := by intro h hh; simp [demoSwarm, PSO.new] at hh
  postMove := by
    intro h hh
    obtain rfl : h = Hooks.moveToBoundary unit := by simpa [demoSwarm, PSO.new] using hh
    exact .boundary unit rfl
  stop := .maxIterations last
  loggers := by intro l hl; simp [demoSwarm, PSO.new] at hl
  goal x _ s := ⟨_, s, rfl, trivial⟩

theorem middle_value (x : List F64) (h : middle x) :
    ((TestFunc.paraboloid x).isFinite = true ∧ (TestFunc.paraboloid x).le (Fl.ofRat false 1 4) = true) ∧
    (TestFunc.paraboloidF64 x).isFinite = true ∧ (TestFunc.paraboloidF64 x).le (Fl.ofRat false 1 4) = true := by
  cases h with
  | cons h1 h2 =>
    cases h2
    rw [h1]
    decide +kernel

/-- A value of at most 1/4 is found in at least 7 of 8 runs, however few iterations there are. -/
theorem C108_swarm_example (last fuel : Nat) (hfuel : last < fuel) :
    7 / 8 ≤ chance (List.replicate 3 2) (fun t => ∃ a o' w',
      PSO.findMin fuel (demoSwarm last) ⟨(t, ()), []⟩ = .ok ((some a, o'), w') ∧ a.2.le (Fl.ofRat false 1 4) = true) := by
  have := C108_swarm_below (m := 2) halves (Fmt.embeds_refl _) (by norm_num) unit unit_ok 3 middle (demoSwarm last) rfl rfl (by
    intro h hh
    obtain rfl : h = Hooks.moveToBoundary unit := by simpa [demoSwarm, PSO.new] using hh
    exact C108_boundary unit unit_ok middle middle_inBox) (demoSwarm_lib last) last (maxIterations_bounding last) (Fl.ofRat false 1 4) (by
      intro x v hx hv
      obtain ⟨s, s', hv⟩ := hv
      obtain ⟨rfl, -⟩ := M.pure_eq_ok.1 hv
      exact (middle_value x hx).1) () fuel hfuel 3 (by decide)
  rw [middle_share] at this
  norm_num at this ⊢
  exact this

/-- Four individuals on the paraboloid in one dimension, without a limit of the population -/
def demoGenetic (last : Nat) : GA.Opt (List Nat × Unit) (List F64) :=
  let R := halves.beside Unit
  GA.new (TestFunc.goalFromFunction TestFunc.paraboloidF64) (Stop.maxIterations last) (Creation.RandomCreator.create R ⟨4, unit⟩)
    (Pairing.tournament R (((Pairing.Tournament.new 2).withPartners 2).withRounds 1))
    (Cross.vecCrossAllGenes Cross.crossMean) (Mutation.vec R (Fl.ofNat 100) (Mutation.bitwise R 1))
    [Selection.killFitnessNaN] [Selection.preBirthInterval unit]

theorem demoGenetic_lib (last : Nat) : LibProgram (halves.beside Unit) 4 unit (demoGenetic last).comps where
  positive := by omega
  intervals := unit_ok
  creator := rfl
  pairing := .inr ⟨2, 1, rfl⟩
  cross := ⟨_, .mean, rfl⟩
  mutation := ⟨Fl.ofNat 100, 1, rfl⟩
  preBirths := rfl
  selections := ⟨[], rfl, by simp⟩
  stop := .maxIterations last
  loggers := by intro l hl; simp [demoGenetic, GA.new] at hl
  goal := fun x hx s => ⟨_, s, rfl, (C72_paraboloid (.inr rfl) x (moderate_of_box (by decide) (by
    intro iv hiv
    rw [unit, List.mem_singleton] at hiv
    subst hiv
    decide +kernel) hx)).1⟩

/-- A value of at most 1/4 is found in at least 15 of 16 runs. -/
theorem C108_genetic_example (last fuel : Nat) (h1 : 0 < last) (hfuel : last < fuel) :
    15 / 16 ≤ chance (List.replicate 4 2) (fun t => ∃ a o' w',
      GA.findMin fuel (demoGenetic last) ⟨(t, ()), []⟩ = .ok ((some a, o'), w') ∧ a.2.le (Fl.ofRat false 1 4) = true) := by
  have := C108_genetic_below (m := 2) halves (Fmt.embeds_refl _) (by norm_num) unit 4 middle (demoGenetic last) rfl (demoGenetic_lib last) (by
    intro sel hs
    obtain rfl : sel = Selection.killFitnessNaN := by simpa [demoGenetic, GA.new] using hs
    exact C29_killFitnessNaN) last (maxIterations_bounding last) (by
      rintro ⟨s, s', h⟩
      have := (M.pure_eq_ok.1 h).1
      simp at this
      omega) (Fl.ofRat false 1 4) (by
      intro x v hx hv
      obtain ⟨s, s', hv⟩ := hv
      obtain ⟨rfl, -⟩ := M.pure_eq_ok.1 hv
      exact (middle_value x hx).2) () fuel hfuel 4 (by decide)
  rw [middle_share] at this
  norm_num at this ⊢
  exact this

/-- C108: with LimitPopulation the search can lose what it has found: the goal was 1 at a point, but the solution returned has the value 2. -/
theorem C108_limit_witness : M.okAnd (GA.findMin 3 worseOpt ⟨[9, 9, 2, 3, 7, 7], []⟩) (fun r w =>
    w.trace.any (fun | .goal _ v => v == Fl.ofNat 1 | _ => false) && r.1.map (·.2) == some (Fl.ofNat 2)) = true := by decide +kernel

end Verif.Props.Initial
