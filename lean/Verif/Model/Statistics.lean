import Verif.Model.Core
import Verif.Model.Num
import Verif.Model.StopChecker

/-!
# Statistics: `optlib/src/tools/statistics/mod.rs`

The goal value type is `f64` in Rust; it is a parameter `γ` here so that the same
text can be read over the reals.
-/

namespace Verif.Stats

open Verif

variable {σ T α γ : Type}

/-- `Statistics<T>` (statistics/mod.rs:13-19) -/
structure Statistics (T : Type) where
  results : List (Option (Solution T))
  convergence : List (List (Option (Solution T)))

/-- `Statistics::new` (statistics/mod.rs:155-160) -/
def Statistics.new : Statistics T := ⟨[], []⟩

/-- `get_run_count` (statistics/mod.rs:162-164) -/
def Statistics.runCount (s : Statistics T) : Nat := s.results.length

/-- `add_result` (statistics/mod.rs:174-176) -/
def addResult (st : AlgState T) : M (Statistics T) Unit := do
  let s ← get
  set { s with results := s.results ++ [st.best] }

/-- `add_convergence` (statistics/mod.rs:178-181): in a checked build
`self.convergence.len() - 1` panics if nothing was started; in an unchecked build the index that
results is out of bounds, which panics as well. -/
def addConvergence (p : Profile) (st : AlgState T) : M (Statistics T) Unit := do
  let s ← get
  let runIndex ← M.ofExcept (usizeSub p s.convergence.length 1)
  let row ← M.index s.convergence runIndex
  set { s with convergence := s.convergence.set runIndex (row ++ [st.best]) }

/-- `Statistics::unite` (statistics/mod.rs:183-186) -/
def Statistics.unite (a b : Statistics T) : Statistics T :=
  ⟨a.results ++ b.results, a.convergence ++ b.convergence⟩

/-- `StatisticsLogger` (statistics/mod.rs:391-409) -/
def logger (p : Profile) : Logger (Statistics T) T where
  start _ := do
    let s ← get
    set { s with convergence := s.convergence ++ [[]] }
  resume _ := pure ()
  nextIteration st := addConvergence p st
  finish st := addResult st

/-- `CallCountData` (statistics/mod.rs:23) -/
abbrev CallCount := List Nat

/-- `CallCountData::new` (statistics/mod.rs:106-108) -/
def CallCount.new : CallCount := []

/-- `next_run` (statistics/mod.rs:111-113) -/
def CallCount.nextRun (c : CallCount) : CallCount := c ++ [0]

/-- `if len == 0 { push(0) }; self.0[self.0.len() - 1] += n`; the index cannot be out of range. -/
def CallCount.addLast (p : Profile) (c : CallCount) (n : Nat) : Except Err CallCount := do
  let c : CallCount := if c.length == 0 then c ++ [0] else c
  let index := c.length - 1
  let v ← usizeAdd p (c.getD index 0) n
  pure (c.set index v)

/-- `increment` (statistics/mod.rs:115-122) -/
def CallCount.increment (p : Profile) (c : CallCount) : Except Err CallCount := CallCount.addLast p c 1

/-- `add` (statistics/mod.rs:124-131) -/
def CallCount.add (p : Profile) (c : CallCount) (n : Nat) : Except Err CallCount := CallCount.addLast p c n

/-- `iter().sum()` of `usize` values -/
def usizeSum (p : Profile) : Nat → List Nat → Except Err Nat
  | acc, [] => .ok acc
  | acc, x :: xs => do
    let acc ← usizeAdd p acc x
    usizeSum p acc xs

/-- `get_average_call_count` (statistics/mod.rs:139-147) -/
def CallCount.average [FloatT γ] (p : Profile) (c : CallCount) : Except Err (Option γ) := do
  let sum ← usizeSum p 0 c
  let count := c.length
  pure (if count == 0 then none else some (FloatT.div (FloatT.ofNat sum) (FloatT.ofNat count)))

/-- `CallCountData::unite` (statistics/mod.rs:149-151) -/
def CallCount.unite (a b : CallCount) : CallCount := a ++ b

/-- `GoalCalcStatistics::get` (statistics/mod.rs:417-422); the counter is the part
`L` of the world. -/
def goalCalc (p : Profile) (L : Lens σ CallCount) (goal : T → M σ F64) (x : T) : M σ F64 := do
  L.zoom (do
    let c ← get
    let c' ← M.ofExcept (CallCount.increment p c)
    set c')
  goal x

/-- `get_min_iterations` (statistics/mod.rs:222-234) -/
def minIterations {β : Type} (conv : List (List β)) : Nat :=
  match conv with
  | [] => 0
  | r :: _ => conv.foldl (fun m x => if x.length < m then x.length else m) r.length

/-- One turn of the inner loop of `get_average_convergence` (statistics/mod.rs:205-210) -/
def avgStep [FloatT γ] (conv : List (List (Option (T × γ)))) (i : Nat) (acc : Nat × γ) (run : Nat) :
    M σ (Nat × γ) := do
  let row ← M.index conv run
  let cell ← M.index row i
  pure (match cell with
    | some sol => (acc.1 + 1, FloatT.add acc.2 sol.2)
    | none => acc)

/-- `get_average_convergence` (statistics/mod.rs:197-220) -/
def averageConvergence [FloatT γ] (conv : List (List (Option (T × γ)))) : M σ (List (Option γ)) :=
  M.mapL (fun i => do
    let (n, sum) ← M.foldL (avgStep conv i) (0, FloatT.zero) (List.range conv.length)
    pure (if n != 0 then some (FloatT.div sum (FloatT.ofNat n)) else none))
    (List.range (minIterations conv))

/-- `filter_map(|x| x.as_ref())` -/
def successes (rs : List (Option (T × γ))) : List (T × γ) := rs.filterMap id

/-- `get_average_goal` (statistics/mod.rs:240-250) -/
def averageGoal [FloatT γ] (rs : List (Option (T × γ))) : Option γ :=
  let ss := successes rs
  let count := ss.length
  let sum := ss.foldl (fun acc s => FloatT.add acc s.2) FloatT.zero
  if count == 0 then none else some (FloatT.div sum (FloatT.ofNat count))

/-- `get_standard_deviation_goal` (statistics/mod.rs:252-271) -/
def stdDevGoal [FloatT γ] (rs : List (Option (T × γ))) : Option γ :=
  match averageGoal rs with
  | none => none
  | some avg =>
    if rs.length < 2 then none
    else
      let ss := successes rs
      let count := ss.length
      let sum := ss.foldl (fun acc s =>
        FloatT.add acc (FloatT.mul (FloatT.sub s.2 avg) (FloatT.sub s.2 avg))) FloatT.zero
      if count < 2 then none
      else some (FloatT.sqrt (FloatT.div sum (FloatT.ofNat (count - 1))))

/-- `vectorize` (statistics/mod.rs:376-379) -/
def vectorize (v1 v2 : List α) (f : α → α → α) : M σ (List α) := do
  M.assert (v1.length == v2.length)
  pure (List.zipWith f v1 v2)

/-- The loop of `get_average` (statistics/mod.rs:286-294) -/
def avgLoop [FloatT α] (acc : Option (List α)) (s : List α × γ) : M σ (Option (List α)) :=
  match acc with
  | none => pure (some s.1)
  | some vector => do
    M.assert (s.1.length == vector.length)
    let v ← vectorize vector s.1 FloatT.add
    pure (some v)

/-- `get_average` (statistics/mod.rs:275-306) -/
def average [FloatT α] [FloatT γ] (rs : List (Option (List α × γ))) :
    M σ (Option (List α × γ)) := do
  match averageGoal rs with
  | none => pure none
  | some goal =>
    let ss := successes rs
    let count := ss.length
    let solution ← M.foldL avgLoop none ss
    pure (match solution with
      | none => none
      | some vector => some (vector.map (fun x => FloatT.div x (FloatT.ofNat count)), goal))

/-- The loop of `get_standard_deviation` (statistics/mod.rs:320-337) -/
def devLoop [FloatT α] (avg : List α) (acc : Option (List α)) (s : List α × γ) :
    M σ (Option (List α)) :=
  match acc with
  | none => do
    let d ← vectorize s.1 avg (fun x y => FloatT.mul (FloatT.sub x y) (FloatT.sub x y))
    pure (some d)
  | some vector => do
    M.assert (s.1.length == vector.length)
    let d ← vectorize s.1 avg (fun x y => FloatT.mul (FloatT.sub x y) (FloatT.sub x y))
    let v ← vectorize vector d FloatT.add
    pure (some v)

/-- `get_standard_deviation` (statistics/mod.rs:308-352). The Rust tuple pattern evaluates
both calls before it matches. -/
def stdDev [FloatT α] [FloatT γ] (rs : List (Option (List α × γ))) :
    M σ (Option (List α × γ)) := do
  let gd := stdDevGoal rs
  let av ← average rs
  match gd, av with
  | some goalDeviation, some (solutionAverage, _) =>
    let ss := successes rs
    let count := ss.length
    if count < 2 then pure none
    else do
      let sum ← M.foldL (devLoop solutionAverage) none ss
      pure (match sum with
        | none => none
        | some vector =>
          some (vector.map (fun x => FloatT.sqrt (FloatT.div x (FloatT.ofNat (count - 1)))),
            goalDeviation))
  | _, _ => pure none

/-- `get_success_rate` (statistics/mod.rs:358-373) -/
def successRate [FloatT γ] (rs : List (Option (T × F64))) (predicate : T × F64 → Bool) : Option γ :=
  let count := rs.length
  if count == 0 then none
  else some (FloatT.div (FloatT.ofNat ((rs.filterMap id).filter predicate).length)
    (FloatT.ofNat count))

/-- `get_predicate_success_goal` (statistics/mod.rs:80-85) -/
def predGoal [FloatT γ] (expected delta : γ) (s : T × γ) : Bool :=
  FloatT.lt (FloatT.abs (FloatT.sub s.2 expected)) delta

/-- The loop of the closure of `get_predicate_success_vec_solution` (statistics/mod.rs:96-101) -/
def predVecLoop [FloatT α] : List α → List (α × α) → Bool
  | x :: xs, (e, d) :: eds =>
    if FloatT.lt d (FloatT.abs (FloatT.sub x e)) then false else predVecLoop xs eds
  | _, _ => true

/-- `get_predicate_success_vec_solution` (statistics/mod.rs:89-103) -/
def predVec [FloatT α] (expected delta : List α) : M σ (List α × γ → Bool) := do
  M.assert (expected.length == delta.length)
  pure (fun s => predVecLoop s.1 (expected.zip delta))

end Verif.Stats
