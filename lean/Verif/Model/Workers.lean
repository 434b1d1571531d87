import Verif.Model.Statistics

/-!
# The threads of the statistics programs: `optlib/examples/*-statistics*.rs`

All seven programs have the same `main` (particleswarm-schwefel-statistics.rs:154-227, and
genetic-rosenbrock-statistics.rs:182-255, genetic-schwefel-statistics.rs:188-261,
particleswarm-rastrigin-statistics-inertia.rs:155-228, particleswarm-rosenbrock-statistics.rs:154-227,
particleswarm-schwefel-statistics-full.rs:163-236, particleswarm-schwefel-statistics-inertia.rs:153-226).
The line numbers below are those of particleswarm-schwefel-statistics.rs.

The scheduler is free: a step is one step of the main thread or of any worker that can go on. One run of an optimizer is one
step of its thread; a run shares nothing with the other threads (the random generator is `rand::thread_rng`). The
channel is a queue (`std::sync::mpsc`). Starting a thread succeeds.
-/

namespace Verif.Workers

open Verif Stats

variable {σ T : Type}

/-- What a thread collects: `(Statistics, CallCountData)`. -/
abbrev Data (T : Type) := Statistics T × CallCount

/-- `Statistics::new()`, `CallCountData::new()` (lines 166-167 and 175-176) -/
def Data.new : Data T := (Statistics.new, CallCount.new)

/-- `full_stat.unite(..); full_call_count.unite(..)` (lines 200-201 and 212-213) -/
def Data.unite (a b : Data T) : Data T := (a.1.unite b.1, CallCount.unite a.2 b.2)

/-- The parameters of the program: the number of processors, the runs per thread, one run (lines 179-197; the number is a bound
on its turns, with `Err.fuel` if it is not enough) and what the thread-local state of a new thread is. -/
structure Program (σ T : Type) where
  cpu : Nat
  runCount : Nat
  job : Nat → M σ (Data T)
  seed : Nat → σ

/-- A run that ends. -/
def Program.Returns (P : Program σ T) (s : σ) (d : Data T) (s' : σ) : Prop := ∃ fuel, P.job fuel s = .ok (d, s')

/-- A run that panics. -/
def Program.Panics (P : Program σ T) (s : σ) : Prop := ∃ fuel e, e ≠ .fuel ∧ P.job fuel s = .error e

/-- A worker (lines 174-206): in its loop, with so many runs to go; after it has sent its data; after a panic. In the last two
cases its sender has been dropped. -/
inductive Thread (σ T : Type) where
  | running (left : Nat) (acc : Data T) (s : σ)
  | sent
  | dead

/-- The main thread: in the first loop (lines 171-207), in the second one (lines 210-214), after it, after a panic. -/
inductive Main (T : Type) where
  | spawning (n : Nat)
  | receiving (n : Nat) (acc : Data T)
  | finished (acc : Data T)
  | panicked

/-- The whole program. The threads are in the order in which they were started; `queue` is the content of the channel. -/
structure Sys (σ T : Type) where
  main : Main T
  threads : List (Thread σ T)
  queue : List (Data T)

/-- Lines 166-169 -/
def Sys.start : Sys σ T := ⟨.spawning 0, [], []⟩

/-- The main thread has its `tx` and `rx` until it ends. -/
def Main.ended : Main T → Bool
  | .finished _ => true
  | .panicked => true
  | _ => false

/-- Somebody holds a sender: the main thread until it ends, a worker while it runs. -/
def Sys.hasSender (y : Sys σ T) : Prop := y.main.ended = false ∨ ∃ t ∈ y.threads, ∃ n acc s, t = .running n acc s

/-- One step. -/
inductive Step (P : Program σ T) : Sys σ T → Sys σ T → Prop where
  /-- lines 171-174 -/
  | spawn (n ts q) : n < P.cpu →
    Step P ⟨.spawning n, ts, q⟩ ⟨.spawning (n + 1), ts ++ [.running P.runCount Data.new (P.seed n)], q⟩
  /-- the end of the first loop -/
  | spawned (n ts q) : ¬ n < P.cpu → Step P ⟨.spawning n, ts, q⟩ ⟨.receiving 0 Data.new, ts, q⟩
  /-- lines 178-202: one run -/
  | run (m ts q) (i : Nat) (left acc s d s') : ts[i]? = some (.running (left + 1) acc s) → P.Returns s d s' →
    Step P ⟨m, ts, q⟩ ⟨m, ts.set i (.running left (acc.unite d) s'), q⟩
  /-- lines 178-202: a run panics -/
  | die (m ts q) (i : Nat) (left acc s) : ts[i]? = some (.running (left + 1) acc s) → P.Panics s →
    Step P ⟨m, ts, q⟩ ⟨m, ts.set i .dead, q⟩
  /-- lines 203-205: the receiver is there -/
  | send (m ts q) (i : Nat) (acc s) : ts[i]? = some (.running 0 acc s) → m.ended = false →
    Step P ⟨m, ts, q⟩ ⟨m, ts.set i .sent, q ++ [acc]⟩
  /-- lines 203-205: the receiver has been dropped and `unwrap` panics -/
  | sendFail (m ts q) (i : Nat) (acc s) : ts[i]? = some (.running 0 acc s) → m.ended = true →
    Step P ⟨m, ts, q⟩ ⟨m, ts.set i .dead, q⟩
  /-- lines 210-214: something has come -/
  | recv (n acc ts d q) : n < P.cpu → Step P ⟨.receiving n acc, ts, d :: q⟩ ⟨.receiving (n + 1) (acc.unite d), ts, q⟩
  /-- line 211: nothing has come and nobody is left who could send; `unwrap` panics -/
  | recvFail (n acc ts) : n < P.cpu → ¬ Sys.hasSender (⟨.receiving n acc, ts, []⟩ : Sys σ T) →
    Step P ⟨.receiving n acc, ts, []⟩ ⟨.panicked, ts, []⟩
  /-- the end of the second loop -/
  | finish (n acc ts q) : ¬ n < P.cpu → Step P ⟨.receiving n acc, ts, q⟩ ⟨.finished acc, ts, q⟩

/-- Any number of steps. -/
inductive Steps (P : Program σ T) : Nat → Sys σ T → Sys σ T → Prop where
  | refl (y) : Steps P 0 y y
  | snoc {n y y' y''} : Steps P n y y' → Step P y' y'' → Steps P (n + 1) y y''

end Verif.Workers
