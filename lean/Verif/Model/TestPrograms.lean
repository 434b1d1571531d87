import Verif.Model.StatPrograms

/-!
# The integration tests: `optlib/tests/*.rs`

The optimizers of the six tests and what is asserted about their results. A test passes if the computation returns; a failed
assertion is `Err.assert`.
-/

namespace Verif.TestPrograms

open Verif Examples Stats Workers

variable {σ : Type}

/-- The optimizer of genetic-paraboloid.rs:14-83 and `_create_optimizer` of genetic-stat-paraboloid.rs:11-77 (with
`size` = 800 and `dims` = 5). The number of partners is set to 2, which is the default. -/
def paraboloidOf (size dims : Nat) (P : Platform σ) (L : Lens σ Stop.GNC) : M σ (GA.Opt σ (List F32)) :=
  genetic P (TestFunc.goalFromFunction TestFunc.paraboloidF64)
    (StatPrograms.threeStops L P.profile (Fl.ofRat false 1 1000000) 150 (Fl.ofRat false 1 10000000) 5000) size
    (box (minus 100 1) (plus 100 1) dims) 2 (Fl.ofNat 15) []

/-- genetic-paraboloid.rs:14-83 -/
def geneticParaboloid (P : Platform σ) (L : Lens σ Stop.GNC) : M σ (GA.Opt σ (List F32)) := paraboloidOf 800 5 P L

/-- The optimizer of genetic-schwefel.rs:31-118 -/
def geneticSchwefel (P : Platform σ) (L : Lens σ Stop.GNC) : M σ (GA.Opt σ (List F32)) :=
  genetic P (TestFunc.goalFromFunction (@TestFunc.schwefelF64 _ P.libm))
    (StatPrograms.threeStops L P.profile (Fl.ofRat false 1 10000) 200 (Fl.ofRat false 1 10000000) 3000) 800
    (box (minus 500 1) (plus 500 1) 5) 5 (Fl.ofNat 15) []

/-- The optimizer of genetic-rastrigin.rs:30-117 -/
def geneticRastrigin (P : Platform σ) (L : Lens σ Stop.GNC) : M σ (GA.Opt σ (List F32)) :=
  genetic P (TestFunc.goalFromFunction (@TestFunc.rastriginF64 _ P.libm))
    (StatPrograms.threeStops L P.profile (Fl.ofRat false 1 10000) 200 (Fl.ofRat false 1 10000000) 3000) 20
    (box (minus 512 100) (plus 512 100) 30) 5 (Fl.ofNat 15) []

/-- The optimizer of particleswarm-paraboloid.rs:21-67 -/
def swarmParaboloid (P : Platform σ) (L : Lens σ Stop.GNC) : M σ (PSO.Opt σ F32) := do
  let calculator ← Velocity.Canonical.new (plus 2 1) (plus 6 1) (plus 2 10)
  let stop ← StatPrograms.threeStops L P.profile (Fl.ofRat false 1 1000000) 150 (Fl.ofRat false 1 10000000) 3000
  let o := PSO.new (TestFunc.goalFromFunction TestFunc.paraboloidF64) stop
    (Creation.randomInit P.rng (box (minus 100 1) (plus 100 1) 5) 150)
    (Creation.zeroInit 5 150) (Velocity.canonical P.rng calculator)
  pure { o with comps := { o.comps with postMove := [Hooks.moveToBoundary (box (minus 100 1) (plus 100 1) 5)] } }

/-- `assert!(abs(solution[i] - valid) < delta)` -/
def nearAt (x : List F32) (valid : Nat → F32) (delta : F32) (i : Nat) : M σ Unit := do
  let xi ← M.index x i
  M.assert ((xi.sub (valid i)).abs.lt delta)

/-- The `match` at the end of the tests (genetic-paraboloid.rs:86-95, genetic-schwefel.rs:121-130, genetic-rastrigin.rs:120-129,
particleswarm-paraboloid.rs:69-78) -/
def verdict (dims : Nat) (valid : Nat → F32) (delta : F32) (limit : F64) : Option (Solution (List F32)) → M σ Unit
  | none => M.assert false
  | some (x, v) => do
    M.foldL (fun _ i => nearAt x valid delta i) () (List.range dims)
    M.assert (v.abs.lt limit)

/-- `i as f32 + 1.0` -/
def succs (i : Nat) : F32 := (Fl.ofNat i).add (plus 1 1)

/-- Make the optimizer, call `find_min` and look at the result. -/
def geneticTest (make : M σ (GA.Opt σ (List F32))) (check : Option (Solution (List F32)) → M σ Unit) (fuel : Nat) : M σ Unit := do
  let o ← make
  fun s => match GA.findMin fuel o ⟨s, []⟩ with
    | .ok ((r, _), w) => check r w.user
    | .error e => .error e

/-- The same for the swarm -/
def swarmTest (make : M σ (PSO.Opt σ F32)) (check : Option (Solution (List F32)) → M σ Unit) (fuel : Nat) : M σ Unit := do
  let o ← make
  fun s => match PSO.findMin fuel o ⟨s, []⟩ with
    | .ok ((r, _), w) => check r w.user
    | .error e => .error e

/-- `genetic_paraboloid` (genetic-paraboloid.rs:13-96) -/
def testGeneticParaboloid (P : Platform σ) (L : Lens σ Stop.GNC) : Nat → M σ Unit :=
  geneticTest (geneticParaboloid P L) (verdict 5 succs (plus 1 10) (Fl.ofRat false 1 1000))

/-- `genetic_schwefel` (genetic-schwefel.rs:30-131) -/
def testGeneticSchwefel (P : Platform σ) (L : Lens σ Stop.GNC) : Nat → M σ Unit :=
  geneticTest (geneticSchwefel P L) (verdict 5 (fun _ => plus 421 1) (plus 1 10) (Fl.ofRat false 1 1000))

/-- `genetic_rastrigin` (genetic-rastrigin.rs:29-130) -/
def testGeneticRastrigin (P : Platform σ) (L : Lens σ Stop.GNC) : Nat → M σ Unit :=
  geneticTest (geneticRastrigin P L) (verdict 30 (fun _ => plus 0 1) (plus 1 100) (Fl.ofRat false 1 1000))

/-- `test_particleswarm_paraboloid` (particleswarm-paraboloid.rs:20-79) -/
def testSwarmParaboloid (P : Platform σ) (L : Lens σ Stop.GNC) : Nat → M σ Unit :=
  swarmTest (swarmParaboloid P L) (verdict 5 succs (plus 3 10) (Fl.ofRat false 1 10))

/-- `optimizer.find_min().unwrap()`, a number of times with the same optimizer -/
def findMins (fuel : Nat) : Nat → GA.Opt σ (List F32) → M (World σ (List F32)) (List (Solution (List F32)))
  | 0, _ => pure []
  | n + 1, o => do
    let (r, o) ← GA.findMin fuel o
    let a ← M.unwrap r
    let as ← findMins fuel n o
    pure (a :: as)

/-- `==` of `Vec<f32>` -/
def vecEq : List F32 → List F32 → Bool
  | [], [] => true
  | a :: as, b :: bs => a.feq b && vecEq as bs
  | _, _ => false

/-- The assertions of genetic-stat-paraboloid.rs:98-106 and 130-142: `results` are what the calls have returned. -/
def statVerdict (results : List (Solution (List F32))) (st : Statistics (List F32)) : M σ Unit := do
  let runCount := results.length
  M.assert (st.runCount == runCount)
  M.assert (st.results.length == runCount)
  M.assert (st.convergence.length == runCount)
  let stats ← M.mapL (fun i => do
    let r ← M.index st.results i
    M.unwrap r) (List.range runCount)
  M.foldL (fun _ (ab : Solution (List F32) × Solution (List F32)) => do
    M.assert (vecEq ab.1.1 ab.2.1)
    M.assert (ab.1.2.feq ab.2.2)) () (results.zip stats)

/-- `genetic_paraboloid_single` (genetic-stat-paraboloid.rs:80-107) for one run, `genetic_paraboloid_two` (110-143) for two -/
def statTest (profile : Profile) (make : M σ (GA.Opt σ (List F32))) (runs fuel : Nat) : M σ Unit := do
  let o ← make
  fun s => match findMins fuel runs (o.attach 0 (Stats.logger profile)) ⟨(s, Statistics.new), []⟩ with
    | .ok (results, w) => statVerdict results w.user.2 w.user.1
    | .error e => .error e

/-- One turn of the loop in a thread of genetic-rosenbrock.rs:128-149. There is no counter; the pair is that of
`Workers.Data`, with an empty list of counters. -/
def rosenbrockJob (profile : Profile) (make : M σ (GA.Opt σ (List F32))) (fuel : Nat) : M σ (Data (List F32)) := do
  let o ← make
  fun s => match GA.findMin fuel (o.attach 0 (Stats.logger profile)) ⟨(s, Statistics.new), []⟩ with
    | .ok (_, w) => .ok ((w.user.2, CallCount.new), w.user.1)
    | .error e => .error e

/-- The end of `genetic_rosenbrock` (genetic-rosenbrock.rs:160-168), with the data of all threads. The optimizer is that of
genetic-rosenbrock-statistics.rs, the threads are as in the statistics programs (genetic-rosenbrock.rs:111-158). -/
def rosenbrockVerdict (d : Data (List F32)) : M σ Unit := do
  let predicate ← predVec (List.replicate 3 (plus 1 1)) (List.replicate 3 (plus 1 100))
  let rate ← M.unwrap (successRate (γ := F64) d.1.results predicate)
  M.assert (Fl.le (Fl.ofRat false 3 4 : F64) rate)

end Verif.TestPrograms
