import Verif.Proofs.MutatingLib
import Verif.Props.Initial

/-!
# C109: with a mutation that can lead into a region the genetic search finds the region in the long run
-/

namespace Verif.Props.Mutating

open Verif Spec Spec.Swarm GA Finds

variable {τ T : Type} {f : Fmt} {m b : Nat} {q : ℚ} {A B L : T → Prop}

/-- `find_min` evaluates a point of the region. -/
def Visits (A : T → Prop) (fuel : Nat) (o : Opt (List Nat × τ) T) (u : τ) (draws : List Nat) : Prop :=
  ∃ r o' w', findMin fuel o ⟨(draws, u), []⟩ = .ok ((r, o'), w') ∧ ∃ x v, A x ∧ Ev.goal x v ∈ w'.trace

/-- `find_min` returns a solution that is not worse than a value of the goal at a point of the region, if that value is finite. -/
def FindsRegion (A : T → Prop) (fuel : Nat) (o : Opt (List Nat × τ) T) (u : τ) (draws : List Nat) : Prop :=
  ∃ r o' w', findMin fuel o ⟨(draws, u), []⟩ = .ok ((r, o'), w') ∧ ∃ x v, A x ∧ Returned (o.comps.goal x) v ∧
    (v.isFinite = true → ∃ a, r = some a ∧ a.2.le v = true)

/-- `find_min` returns a solution with a value of at most `bound`. -/
def FindsAtMost (bound : F64) (fuel : Nat) (o : Opt (List Nat × τ) T) (u : τ) (draws : List Nat) : Prop :=
  ∃ a o' w', findMin fuel o ⟨(draws, u), []⟩ = .ok ((some a, o'), w') ∧ a.2.le bound = true

/-- C109: if every mutation leads into the region with a chance of at least `q` and there are `b` children or more in a generation, then after `last`
generations a point of the region has been evaluated with a chance of at least `1 - (1 - q) ^ (b * last)`, whatever the region, the goal, the
initial population, the pairing, the crossing and the selections are. -/
theorem C109_visits (hm : 0 < m) (o : Opt (List Nat × τ) T) (hc : Mutating m b q A B L o.comps) (hq0 : 0 ≤ q) (hq : q ≤ 1) (last : Nat)
    (hst : o.comps.stop = Stop.maxIterations last) (fuel : Nat) (hf : last < fuel) (u : τ) :
    ∃ enough, ∀ N ≥ enough, 1 - (1 - q) ^ (b * last) ≤ chance (List.replicate N m) (Visits A fuel o u) := by
  obtain ⟨K, h⟩ := chance_findMinGA hm hc hq0 hq hst hf u []
  refine ⟨K, fun N hN => (h N hN).trans (chance_mono fun t ht => ?_)⟩
  obtain ⟨r, o', w', h1, -, x, v, hx, hA, -⟩ := ht
  exact ⟨r, o', w', h1, x, v, hA, evaluated_of_goalsSince hx⟩

/-- C109: if moreover the selections keep the best individual, then the search returns, with this chance, a solution that is not worse than the
goal at a point of the region. -/
theorem C109_finds (hm : 0 < m) (o : Opt (List Nat × τ) T) (hc : Mutating m b q A B L o.comps) (hq0 : 0 ≤ q) (hq : q ≤ 1)
    (hk : ∀ sel ∈ o.comps.selections, KeepsBest sel) (last : Nat) (hlast : 0 < last)
    (hst : o.comps.stop = Stop.maxIterations last) (fuel : Nat) (hf : last < fuel) (u : τ) :
    ∃ enough, ∀ N ≥ enough, 1 - (1 - q) ^ (b * last) ≤ chance (List.replicate N m) (FindsRegion A fuel o u) := by
  obtain ⟨K, h⟩ := chance_findMinGA hm hc hq0 hq hst hf u []
  refine ⟨K, fun N hN => (h N hN).trans (chance_mono fun t ht => ?_)⟩
  obtain ⟨r, o', w', h1, hit, x, v, hx, hA, hG⟩ := ht
  exact ⟨r, o', w', h1, x, v, hA, hG, fun hv => Initial.C108_best o o' hk fuel r _ w' h1 (by omega) x v hx hv⟩

theorem findsAtMost {o : Opt (List Nat × τ) T} {bound : F64}
    (hb : ∀ x v, A x → Returned (o.comps.goal x) v → v.isFinite = true ∧ v.le bound = true) {fuel : Nat} {u : τ} {draws : List Nat}
    (h : FindsRegion A fuel o u draws) : FindsAtMost bound fuel o u draws := by
  obtain ⟨r, o', w', h1, x, v, hA, hG, h2⟩ := h
  obtain ⟨h3, h4⟩ := hb x v hA hG
  obtain ⟨a, rfl, h5⟩ := h2 h3
  exact ⟨a, o', w', h1, Fl.le_trans h5 h4⟩

/-- C109: if the values of the goal in the region are finite and at most `bound`, then the value found is at most `bound`, with this chance. -/
theorem C109_below (hm : 0 < m) (o : Opt (List Nat × τ) T) (hc : Mutating m b q A B L o.comps) (hq0 : 0 ≤ q) (hq : q ≤ 1)
    (hk : ∀ sel ∈ o.comps.selections, KeepsBest sel) (bound : F64)
    (hb : ∀ x v, A x → Returned (o.comps.goal x) v → v.isFinite = true ∧ v.le bound = true) (last : Nat) (hlast : 0 < last)
    (hst : o.comps.stop = Stop.maxIterations last) (fuel : Nat) (hf : last < fuel) (u : τ) :
    ∃ enough, ∀ N ≥ enough, 1 - (1 - q) ^ (b * last) ≤ chance (List.replicate N m) (FindsAtMost bound fuel o u) := by
  obtain ⟨E, h⟩ := C109_finds hm o hc hq0 hq hk last hlast hst fuel hf u
  exact ⟨E, fun N hN => (h N hN).trans (chance_mono fun t ht => findsAtMost hb ht)⟩

/-- The same optimizer, stopped after `last` generations -/
def stopped (o : Opt (List Nat × τ) T) (last : Nat) : Opt (List Nat × τ) T := { o with comps := { o.comps with stop := Stop.maxIterations last } }

theorem mutating_stopped {o : Opt (List Nat × τ) T} (hc : Mutating m b q A B L o.comps) (last : Nat) : Mutating m b q A B L (stopped o last).comps where
  lasting := ⟨hc.lasting.goal, fun s w => ⟨_, w, rfl, trivial⟩, hc.lasting.creator, hc.lasting.pairing, hc.lasting.cross, hc.lasting.mutation,
    hc.lasting.preBirths, hc.lasting.selections, hc.lasting.loggers⟩
  goal := hc.goal
  creator := hc.creator
  pairing := hc.pairing
  cross := hc.cross
  mutation := hc.mutation
  preBirths := hc.preBirths
  selections := hc.selections
  loggers := hc.loggers

theorem pow_small (hq0 : 0 < q) (hq : q ≤ 1) (hb : 0 < b) (ε : ℚ) (hε : 0 < ε) : ∃ n, 0 < n ∧ ∀ last ≥ n, 1 - ε ≤ 1 - (1 - q) ^ (b * last) := by
  obtain ⟨N, hN⟩ := exists_pow_lt_of_lt_one hε (show 1 - q < 1 by linarith)
  refine ⟨N + 1, by omega, fun last hlast => ?_⟩
  have : (1 - q) ^ (b * last) ≤ (1 - q) ^ N := by
    refine pow_le_pow_of_le_one (by linarith) (by linarith) ?_
    exact le_trans (by omega) (Nat.le_mul_of_pos_left last hb)
  linarith

/-- C109: in the long run the region is found almost certainly: for every `ε` there is a number of generations from which on the chance is at
least `1 - ε`. -/
theorem C109_limit (hm : 0 < m) (o : Opt (List Nat × τ) T) (hc : Mutating m b q A B L o.comps) (hb : 0 < b) (hq0 : 0 < q) (hq : q ≤ 1) (ε : ℚ) (hε : 0 < ε) :
    ∃ generations, ∀ last ≥ generations, ∀ fuel > last, ∀ u, ∃ enough, ∀ N ≥ enough,
      1 - ε ≤ chance (List.replicate N m) (Visits A fuel (stopped o last) u) ∧
      ((∀ sel ∈ o.comps.selections, KeepsBest sel) → 1 - ε ≤ chance (List.replicate N m) (FindsRegion A fuel (stopped o last) u)) := by
  obtain ⟨n, hn0, hn⟩ := pow_small hq0 hq hb ε hε
  refine ⟨n, fun last hlast fuel hf u => ?_⟩
  have hc' := mutating_stopped hc last
  obtain ⟨E1, h1⟩ := C109_visits hm _ hc' hq0.le hq last rfl fuel hf u
  by_cases hk : ∀ sel ∈ o.comps.selections, KeepsBest sel
  · obtain ⟨E2, h2⟩ := C109_finds hm _ hc' hq0.le hq hk last (by omega) rfl fuel hf u
    exact ⟨max E1 E2, fun N hN => ⟨(hn last hlast).trans (h1 N (le_trans (le_max_left _ _) hN)), fun _ =>
      (hn last hlast).trans (h2 N (le_trans (le_max_right _ _) hN))⟩⟩
  · exact ⟨E1, fun N hN => ⟨(hn last hlast).trans (h1 N hN), fun h => absurd h hk⟩⟩

theorem geometric {r : ℚ} (h0 : 0 ≤ r) (h1 : r < 1) (n : Nat) : ∑ k ∈ Finset.range n, r ^ k ≤ 1 / (1 - r) := by
  have h2 : 0 < 1 - r := by linarith
  rw [le_div_iff₀ h2]
  have := geom_sum_mul r n
  have h3 := pow_nonneg h0 n
  linarith

/-- C109: how long it takes. The sum, over all numbers of generations, of the chances that the search has not come into the region by then, that is the
mean number of generations that it needs, is at most `1 / (1 - (1 - q) ^ b)`. -/
theorem C109_mean_time (hm : 0 < m) (o : Opt (List Nat × τ) T) (hc : Mutating m b q A B L o.comps) (hb : 0 < b) (hq0 : 0 < q) (hq : q ≤ 1) (u : τ)
    (horizon : Nat) : ∃ enough, ∀ N ≥ enough,
      ∑ last ∈ Finset.range horizon, (1 - chance (List.replicate N m) (Visits A (last + 1) (stopped o last) u)) ≤ 1 / (1 - (1 - q) ^ b) := by
  have h1 : ∀ last, ∃ enough, ∀ N ≥ enough, 1 - (1 - q) ^ (b * last) ≤ chance (List.replicate N m) (Visits A (last + 1) (stopped o last) u) :=
    fun last => C109_visits hm _ (mutating_stopped hc last) hq0.le hq last rfl (last + 1) (by omega) u
  choose E hE using h1
  refine ⟨(Finset.range horizon).sup E, fun N hN => ?_⟩
  refine le_trans (Finset.sum_le_sum (g := fun last => ((1 - q) ^ b) ^ last) fun last hl => ?_) (geometric (pow_nonneg (by linarith) b)
    (pow_lt_one₀ (by linarith) (by linarith) (by omega)) horizon)
  have := hE last N (le_trans (Finset.le_sup (f := E) hl) hN)
  rw [← pow_mul]
  linarith

/-! ### The library's components -/

/-- A genetic optimizer put together from the library (`LibProgram`), with Tournament for `b` families. The region is given by a condition for each
gene and lies in the intervals. The mutation can reach it: some draws make VecMutation mutate a gene, and every value of the type
differs from a value with the condition in at most as many bits as BitwiseMutation flips, and in an even number if and only if that is
even. The goal and the loggers draw finitely many random numbers in a call. -/
structure LibMutating (dr : Draws) (m b size : Nat) (ivs : List (Fl f × Fl f)) (prob : F64) (count : Nat) (conds : List (Fl f → Prop))
    (c : Comps (List Nat × τ) (List (Fl f))) : Prop where
  program : LibProgram (dr.beside τ) size ivs c
  pairing : ∃ rounds, c.pairing = Pairing.tournament (dr.beside τ) (((Pairing.Tournament.new b).withPartners 2).withRounds rounds)
  mutation : c.mutation = Mutation.vec (dr.beside τ) prob (Mutation.bitwise (dr.beside τ) count)
  dimension : conds.length = ivs.length
  inside : ∀ x, List.Forall₂ (fun P g => P g) conds x → InBox ivs x
  mutates : ∃ k < m, (dr.openVal (Fl.zero : F64) Mutation.hundred k).lt prob = true
  near : ∀ P ∈ conds, ∀ g : Fl f, ∃ y : Fl f, P y ∧ hamming g.bits y.bits ≤ count ∧ hamming g.bits y.bits % 2 = count % 2
  goal : ∀ x, InBox ivs x → Draw m (c.goal x) (fun _ => True)
  loggers : ∀ l ∈ c.loggers, ∀ s, Draw m (l.start s) (fun _ => True) ∧ Draw m (l.resume s) (fun _ => True) ∧
    Draw m (l.nextIteration s) (fun _ => True) ∧ Draw m (l.finish s) (fun _ => True)

/-- C109: then the theorems above are about the optimizer: every mutation leads into the region with a chance of at least
`1 / m ^ ((1 + count) * d)`, where `d` is the number of genes and `m` the number of values of a draw. -/
theorem C109_library (dr : Draws) (hf : Fmt.Embeds f Fmt.f64) (hw : f.w ≤ m) (size : Nat) (ivs : List (Fl f × Fl f)) (prob : F64) (count : Nat)
    (conds : List (Fl f → Prop)) (c : Comps (List Nat × τ) (List (Fl f))) (h : LibMutating dr m b size ivs prob count conds c) :
    Mutating m b (1 / (m : ℚ) ^ ((1 + count) * ivs.length)) (List.Forall₂ (fun P g => P g) conds) (InBox ivs) (fun x => x.length = ivs.length) c where
  lasting := C71_lasting (dr.beside τ) hf size ivs c h.program
  goal := h.goal
  creator := by
    rw [h.program.creator]
    refine Reads.draws (K := 1 * ivs.length * size) (Reads.mono (Reads.replicate (Q := fun _ => True) ?_ size) le_rfl fun _ _ => trivial)
    refine Reads.mono (Reads.mapL (K := 1) (Q := fun _ => True) ivs fun iv hiv => ?_) le_rfl fun _ _ => trivial
    obtain ⟨h1, h2, h3⟩ := h.program.intervals iv hiv
    rw [show (1 : Nat) = 1 + 0 by rfl]
    refine Reads.bind (Reads.uniformFlIncl dr ?_) fun _ _ => Reads.pure trivial
    rw [Fl.cast_le hf h1 h2 (Fl.le_of_lt h3), (Fl.cast_exact hf h1).1, (Fl.cast_exact hf h2).1]
    rfl
  pairing := by
    intro p hp
    obtain ⟨rounds, e⟩ := h.pairing
    rw [e]
    exact Reads.draws (reads_tournament dr _ p hp)
  cross := by
    intro xs hx hb
    obtain ⟨single, h1, h2⟩ := h.program.cross
    match xs, hx with
    | [x, y], _ =>
      rw [h2]
      exact Reads.draws (reads_cross dr h1 x y ((hb x (by simp)).length_eq.symm.trans (hb y (by simp)).length_eq))
  mutation := by
    intro x hx u
    obtain ⟨k0, hk0, hk⟩ := h.mutates
    have hm : 0 < m := by omega
    obtain ⟨t, ys, h1, h2, h3, h4⟩ := vec_tape (τ := τ) dr hw hk0 hk conds h.near x (by rw [hx, h.dimension])
    refine ⟨(1 + count) * ivs.length, ?_, ?_⟩
    · have := reads_vec (m := m) (τ := τ) dr prob count x u
      rw [hx] at this
      rw [h.mutation]
      exact this
    · refine chance_of_tape hm (t := t) (by rw [h1, h.dimension]) h2 ⟨ys, ([], u), ?_, h3⟩
      rw [h.mutation]
      have := h4 [] u
      rwa [List.append_nil] at this
  preBirths := by
    intro g hg p xs hx
    rw [h.program.preBirths, List.mem_singleton] at hg
    subst hg
    have hn : ∀ iv ∈ ivs, iv.1.isNan = false ∧ iv.2.isNan = false := by
      intro iv hiv
      have := Fl.lt_iff.1 (h.program.intervals iv hiv).2.2
      exact ⟨this.1, this.2.1⟩
    refine Reads.draws (Reads.const (fun s => C14_preBirth ivs hn p xs hx s) ⟨fun y hy => hx y (List.mem_filter.1 hy).1, fun x hxm hA => ?_⟩)
    exact List.mem_filter.2 ⟨hxm, by simpa using h.inside x hA⟩
  selections := by
    intro sel hs p hp
    obtain ⟨rest, e, hr⟩ := h.program.selections
    rw [e] at hs
    have hkill : Draw m (Selection.killFitnessNaN p : M (List Nat × τ) _) (fun p' => OnlyKills p p') := by
      refine Reads.draws (Reads.blind (.inl ⟨_, fun _ => rfl⟩) fun s => ?_)
      obtain ⟨p', h1, h2, -⟩ := C12_killFitnessNaN p s
      exact ⟨p', s, h1, h2⟩
    rcases List.mem_cons.1 hs with rfl | hs
    · exact hkill
    · cases hr sel hs with
      | limitPopulation n hn =>
        refine Reads.draws (Reads.blind (blind_limit n p) fun s => ?_)
        obtain ⟨p', h1, h2, -⟩ := C15_limit n p s
        exact ⟨p', s, h1, h2⟩
      | killFitnessNaN => exact hkill
      | checkChromoInterval =>
        have hn : ∀ iv ∈ ivs, iv.1.isNan = false ∧ iv.2.isNan = false := by
          intro iv hiv
          have := Fl.lt_iff.1 (h.program.intervals iv hiv).2.2
          exact ⟨this.1, this.2.1⟩
        refine Reads.draws (Reads.blind (blind_check ivs p) fun s => ?_)
        obtain ⟨p', h1, h2, -⟩ := C13_checkInterval ivs hn p (fun i hi => (hp i hi).length_eq.symm) s
        exact ⟨p', s, h1, h2⟩
  loggers := h.loggers

/-- C109: if BitwiseMutation flips as many bits as the type has or more, then a condition can be reached from everywhere if two values that differ in an
odd number of bits meet it, such as two neighbours of which the smaller ends with a 0 bit. -/
theorem C109_near (count : Nat) (hc : f.w ≤ count) (P : Fl f → Prop) (y z : Fl f) (hy : P y) (hz : P z) (hyz : hamming y.bits z.bits % 2 = 1) (g : Fl f) :
    ∃ y : Fl f, P y ∧ hamming g.bits y.bits ≤ count ∧ hamming g.bits y.bits % 2 = count % 2 := near_of_two hc y z hy hz hyz g

/-! ### A concrete program -/

/-- 1/2 or 3/4, which differ in one bit -/
def low (x : F64) : Prop := x = Fl.ofRat false 1 2 ∨ x = Fl.ofRat false 3 4

/-- Four individuals on the paraboloid in the interval from 0 to 1, with the bitwise crossing and a mutation of 64 flips -/
def demo (last : Nat) : Opt (List Nat × Unit) (List F64) :=
  let R := halves.beside Unit
  GA.new (TestFunc.goalFromFunction TestFunc.paraboloidF64) (Stop.maxIterations last) (Creation.RandomCreator.create R ⟨4, Initial.unit⟩)
    (Pairing.tournament R (((Pairing.Tournament.new 2).withPartners 2).withRounds 1))
    (Cross.vecCrossAllGenes (Cross.crossBitwise .debug R)) (Mutation.vec R (Fl.ofNat 100) (Mutation.bitwise R 64))
    [Selection.killFitnessNaN] [Selection.preBirthInterval Initial.unit]

theorem demo_lib (last : Nat) : LibMutating halves 64 2 4 Initial.unit (Fl.ofNat 100) 64 [low] (demo last).comps where
  program :=
  { positive := by omega
    intervals := Initial.unit_ok
    creator := rfl
    pairing := .inr ⟨2, 1, rfl⟩
    cross := ⟨_, .bitwise .debug, rfl⟩
    mutation := ⟨Fl.ofNat 100, 64, rfl⟩
    preBirths := rfl
    selections := ⟨[], rfl, by simp⟩
    stop := .maxIterations last
    loggers := by intro l hl; simp [demo, GA.new] at hl
    goal := (Initial.demoGenetic_lib last).goal }
  pairing := ⟨1, rfl⟩
  mutation := rfl
  dimension := rfl
  inside := by
    intro x hx
    cases hx with
    | cons h1 h2 =>
      cases h2
      rcases h1 with rfl | rfl
      · exact .cons (by unfold InInterval; decide +kernel) .nil
      · exact .cons (by unfold InInterval; decide +kernel) .nil
  mutates := ⟨0, by norm_num, by decide +kernel⟩
  near := by
    intro P hP
    rw [List.mem_singleton] at hP
    subst hP
    exact C109_near 64 (by decide) low (Fl.ofRat false 1 2) (Fl.ofRat false 3 4) (.inl rfl) (.inr rfl) (by decide +kernel)
  goal x _ := Reads.draws (Reads.const (fun s => rfl) trivial)
  loggers := by intro l hl; simp [demo, GA.new] at hl

/-- For every `ε` there is a number of generations from which on a value of at most 1/4 is found with a chance of at least `1 - ε`. -/
theorem C109_example (ε : ℚ) (hε : 0 < ε) : ∃ generations, ∀ last ≥ generations, ∀ fuel > last, ∃ enough, ∀ N ≥ enough,
    1 - ε ≤ chance (List.replicate N 64) (FindsAtMost (Fl.ofRat false 1 4) fuel (demo last) ()) := by
  obtain ⟨n, h⟩ := C109_limit (by norm_num) (demo 0) (C109_library halves (Fmt.embeds_refl _) (by decide) 4 _ _ _ _ _ (demo_lib 0)) (by norm_num)
    (by positivity) (by
      rw [div_le_one (by positivity)]
      exact one_le_pow₀ (by norm_num)) ε hε
  refine ⟨n, fun last hl fuel hf => ?_⟩
  obtain ⟨E, h⟩ := h last hl fuel hf ()
  refine ⟨E, fun N hN => ((h N hN).2 (by
    intro sel hs
    obtain rfl : sel = Selection.killFitnessNaN := by simpa [demo, GA.new] using hs
    exact C29_killFitnessNaN)).trans (Finds.chance_mono fun t ht => findsAtMost (o := demo last) ?_ ht)⟩
  intro x v hx hv
  obtain ⟨s, s', hv⟩ := hv
  obtain ⟨rfl, -⟩ := M.pure_eq_ok.1 hv
  cases hx with
  | cons h1 h2 =>
    cases h2
    rcases h1 with rfl | rfl
    · decide +kernel
    · decide +kernel

/-- The mean number of generations it needs is bounded. -/
example (horizon : Nat) : ∃ enough, ∀ N ≥ enough, ∑ last ∈ Finset.range horizon,
    (1 - chance (List.replicate N 64) (Visits (List.Forall₂ (fun P g => P g) [low]) (last + 1) (demo last) ())) ≤ 1 / (1 - (1 - 1 / (64 : ℚ) ^ 65) ^ 2) := by
  obtain ⟨E, h⟩ := C109_mean_time (by norm_num) (demo 0) (C109_library halves (Fmt.embeds_refl _) (by decide) 4 _ _ _ _ _ (demo_lib 0)) (by norm_num)
    (by positivity) (by
      rw [div_le_one (by positivity)]
      exact one_le_pow₀ (by norm_num)) () horizon
  exact ⟨E, h⟩

/-! ### RandomPairing with one individual -/

/-- One individual at most and one evaluation -/
def Lone (p : Population T) (tr : List (Ev T)) : Prop := p.individuals.length ≤ 1 ∧ (goalsSince tr).length = 1

/-- The creator makes one chromosome, RandomPairing pairs, the pre-birth filters make nothing from nothing and the selections only kill. -/
structure Single {σ : Type} (R : Rng σ) (c : Comps σ T) : Prop where
  creator : ∀ xs, Returned c.creator xs → xs.length = 1
  pairing : c.pairing = Pairing.randomPairing R
  preBirths : ∀ g ∈ c.preBirths, ∀ p ys, Returned (g p []) ys → ys = []
  selections : ∀ sel ∈ c.selections, ∀ p s p' s', sel p s = .ok (p', s') → OnlyKills p p'

theorem lone_begin {σ : Type} {R : Rng σ} {c : Comps σ T} (hc : Single R c) {p' : Population T} {w w' : World σ T} (hr : begin c w = .ok (p', w')) :
    Lone p' w'.trace := by
  obtain ⟨xs, vals, hx, hv, rfl, ht⟩ := begin_ok hr
  have hn : ∀ e ∈ List.zipWith Ev.goal xs vals, NotCreated e := by
    intro e he; obtain ⟨_, _, _, _, h'⟩ := mem_zipWith he; subst h'; trivial
  have h1 := hc.creator xs hx
  unfold Lone
  rw [ht, show (.created xs :: List.zipWith Ev.goal xs vals) = [.created xs] ++ List.zipWith Ev.goal xs vals from rfl,
    ← List.append_assoc, Spec.goalsSince_append hn, Spec.goalsSince_created, List.nil_append]
  match xs, h1, vals, hv with
  | [x], _, [v], _ => exact ⟨le_rfl, rfl⟩

theorem preBirths_nil {σ : Type} {p : Population T} {fs : List (Population T → List T → M σ (List T))} {i : Nat} {xs : List T} {evs : List (Ev T)} {ys : List T}
    (h : PreBirths p i fs xs evs ys) (hf : ∀ g ∈ fs, ∀ ys, Returned (g p []) ys → ys = []) (hx : xs = []) : ys = [] := by
  induction h with
  | nil => exact hx
  | cons h1 _ ih =>
    subst hx
    exact ih (fun g hg => hf g (List.mem_cons_of_mem _ hg)) (hf _ (by simp) _ h1)

theorem selections_length {σ : Type} {fs : List (Population T → M σ (Population T))} {i : Nat} {p q : Population T} {evs : List (Ev T)}
    (h : Selections i fs p evs q) (hf : ∀ sel ∈ fs, ∀ p s p' s', sel p s = .ok (p', s') → OnlyKills p p') :
    q.individuals.length = p.individuals.length := by
  induction h with
  | nil => rfl
  | cons h1 _ ih =>
    obtain ⟨s, s', h1⟩ := h1
    rw [ih fun g hg => hf g (List.mem_cons_of_mem _ hg)]
    exact ((hf _ (by simp) _ _ _ _ h1).2.2.2).length_eq.symm

theorem inv_lone {σ : Type} {R : Rng σ} : Inv (σ := σ) (T := T) (Single R) Lone where
  log := by rintro p tr i k h; exact ⟨h.1, by rw [Spec.goalsSince_snoc]; exact h.2⟩
  check := by rintro p tr b h; exact ⟨h.1, by rw [Spec.goalsSince_snoc]; exact h.2⟩
  begin := fun _ _ _ _ _ hc _ hr => lone_begin hc hr
  core := by
    rintro c p p' w w' hc ⟨h1, h2⟩ hr
    obtain ⟨evs, g, ht, -⟩ := core_ok hr
    have hfam : g.families = [] := by
      obtain ⟨s, s', h⟩ := g.pairing_ok
      rw [hc.pairing] at h
      unfold Pairing.randomPairing at h
      obtain ⟨u, s1, -, h⟩ := M.bind_eq_ok.1 h
      rw [show p.len / 2 = 0 by unfold Population.len; omega] at h
      exact (M.pure_eq_ok.1 h).1.symm
    have hpar : g.parents = [] := by have := g.parents_ok; rw [hfam] at this; exact List.forall₂_nil_left_iff.1 this
    have hch : g.children = [] := by have := g.cross_ok; rw [hpar] at this; exact List.forall₂_nil_left_iff.1 this
    have hmu : g.mutants = [] := by
      have := g.mutation_ok; rw [hch] at this; exact List.forall₂_nil_left_iff.1 this
    have hb : g.born = [] := preBirths_nil g.preBirth_ok (fun f hf ys => hc.preBirths f hf p ys) hmu
    refine ⟨?_, ?_⟩
    · rw [g.alive_ok]
      refine (List.length_filter_le _ _).trans ?_
      rw [selections_length g.select_ok hc.selections, hb]
      simpa [newborn] using h1
    · rw [ht, Spec.goalsSince_append (generation_notCreated g)]
      have : goalsOf evs = [] := by
        unfold goalsOf
        refine List.filterMap_eq_nil_iff.2 fun e he => ?_
        cases e <;> try rfl
        have := generation_goal_born g he
        rw [hb] at this
        simp [newborn] at this
      rw [this, List.append_nil]
      exact h2

/-- C109: with RandomPairing and one individual no family is ever built: whatever the draws, the number of generations, the goal and the mutation
are, the one initial point is the only one that is evaluated. -/
theorem C109_stalls {σ : Type} (R : Rng σ) (o o' : Opt σ T) (hc : Single R o.comps) (fuel : Nat) (r : Option (Solution T)) (s : σ) (w' : World σ T)
    (h : findMin fuel o ⟨s, []⟩ = .ok ((r, o'), w')) : ∃ x v, goalsSince w'.trace = [(x, v)] ∧ lastCreated w'.trace = [x] := by
  obtain ⟨p, w1, w2, h1, h2, h3⟩ := findMin_ok.1 h
  have h4 : Lone o'.pop w'.trace := (inv_lone (R := R)).nextIterations (o := { o with pop := p }) hc h3 ((inv_lone (R := R)).callLoggers h2 (lone_begin hc h1))
  obtain ⟨xs, s', h5, h6⟩ := findMin_created h
  have h7 := hc.creator xs ⟨_, _, h5⟩
  obtain ⟨⟨x, v⟩, h8⟩ := List.length_eq_one_iff.1 h4.2
  obtain ⟨y, rfl⟩ := List.length_eq_one_iff.1 h7
  refine ⟨x, v, h8, ?_⟩
  obtain ⟨v', hv⟩ := inv_initial.findMin trivial h (by simp [lastCreated]) y (by rw [h6]; simp)
  rw [h8, List.mem_singleton] at hv
  cases hv
  exact h6

/-- An optimizer of the library with RandomPairing and a population of one is such an optimizer. -/
theorem C109_stalls_library {σ : Type} (R : Rng σ) (ivs : List (Fl f × Fl f)) (c : Comps σ (List (Fl f))) (h : LibProgram R 1 ivs c)
    (hp : c.pairing = Pairing.randomPairing R) : Single R c where
  creator := by
    rintro xs ⟨s, s', hr⟩
    rw [h.creator] at hr
    exact M.replicate_length hr
  pairing := hp
  preBirths := by
    rintro g hg p ys ⟨s, s', hr⟩
    rw [h.preBirths, List.mem_singleton] at hg
    subst hg
    exact (M.pure_eq_ok.1 hr).1.symm
  selections := by
    intro sel hs p s p' s' hr
    obtain ⟨rest, e, hrest⟩ := h.selections
    rw [e] at hs
    rcases List.mem_cons.1 hs with rfl | hs
    · exact (C17_one _ .killFitnessNaN _ _ _ _ hr).1
    · cases hrest sel hs with
      | limitPopulation n hn => exact (C17_one _ (.limitPopulation n) _ _ _ _ hr).1
      | killFitnessNaN => exact (C17_one _ .killFitnessNaN _ _ _ _ hr).1
      | checkChromoInterval => exact (C17_one _ (.checkChromoInterval ivs) _ _ _ _ hr).1

/-- One individual on the paraboloid in the interval from 0 to 1, with RandomPairing -/
def alone : Opt (List Nat × Unit) (List F64) :=
  let R := halves.beside Unit
  GA.new (TestFunc.goalFromFunction TestFunc.paraboloidF64) (Stop.maxIterations 3) (Creation.RandomCreator.create R ⟨1, Initial.unit⟩)
    (Pairing.randomPairing R) (Cross.vecCrossAllGenes (Cross.crossBitwise .debug R)) (Mutation.vec R (Fl.ofNat 100) (Mutation.bitwise R 64))
    [Selection.killFitnessNaN] [Selection.preBirthInterval Initial.unit]

theorem alone_lib : LibProgram (halves.beside Unit) 1 Initial.unit alone.comps where
  positive := by omega
  intervals := Initial.unit_ok
  creator := rfl
  pairing := .inl rfl
  cross := ⟨_, .bitwise .debug, rfl⟩
  mutation := ⟨Fl.ofNat 100, 64, rfl⟩
  preBirths := rfl
  selections := ⟨[], rfl, by simp⟩
  stop := .maxIterations 3
  loggers := by intro l hl; simp [alone, GA.new] at hl
  goal := (Initial.demoGenetic_lib 3).goal

/-- It runs through its three generations. -/
theorem alone_runs : M.okAnd (findMin 5 alone ⟨([0, 0, 0, 0], ()), []⟩) (fun r _ => r.2.pop.iteration == 3 && r.1.isSome) = true := by decide +kernel

example (fuel : Nat) (r : Option (Solution (List F64))) (o' : Opt (List Nat × Unit) (List F64)) (s : List Nat × Unit) (w' : World (List Nat × Unit) (List F64))
    (h : findMin fuel alone ⟨s, []⟩ = .ok ((r, o'), w')) : ∃ x v, goalsSince w'.trace = [(x, v)] ∧ lastCreated w'.trace = [x] :=
  C109_stalls _ alone o' (C109_stalls_library _ _ _ alone_lib rfl) fuel r s w' h

end Verif.Props.Mutating
