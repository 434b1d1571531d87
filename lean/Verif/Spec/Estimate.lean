import Verif.Spec.Finds
import Verif.Spec.StatPrograms
import Verif.Spec.Workers
import Verif.Spec.Speed
import Mathlib.Data.Nat.Choose.Basic

/-!
# Specification vocabulary: independent runs

The random numbers of all threads come from one long tape of draws. Each thread has a piece of it.
-/

namespace Verif.Spec

open Verif Stats Workers

variable {σ τ T : Type}

/-- The chance that exactly `k` of `n` independent trials succeed, each of which succeeds with the chance `p` -/
def binomial (n k : Nat) (p : ℚ) : ℚ := n.choose k * p ^ k * (1 - p) ^ (n - k)

/-- What thread number `i` begins with: the piece of `N` numbers from position `i * N` of the tape, and the state `u i`. -/
def pieces (N : Nat) (u : Nat → τ) (t : List Nat) (i : Nat) : List Nat × τ := ((t.drop (i * N)).take N, u i)

/-- An execution of the program, with some scheduling of the threads, ends with the merged data `acc`. -/
def Finishes (P : Program σ T) (acc : Data T) : Prop := ∃ n y, Steps P n .start y ∧ y.main = .finished acc

/-- The program can come to its end, and whatever the scheduler does, it counts `k` good results then. -/
def Counts (P : Program σ T) (good : Solution T → Bool) (k : Nat) : Prop :=
  (∃ acc, Finishes P acc) ∧ ∀ acc, Finishes P acc → accepted acc.1.results good = k

/-- A single run from `s` ends with a solution that is `good`. -/
def Succeeds (job : Nat → M σ (Data T)) (s : σ) (good : Solution T → Prop) : Prop :=
  ∃ fuel d s' a, job fuel s = .ok (d, s') ∧ d.1.results = [some a] ∧ good a

/-- The chance that a single run succeeds, if there are `N` draws for it -/
noncomputable def successChance (m N : Nat) (job : Nat → M (List Nat × τ) (Data T)) (u : τ) (good : Solution T → Prop) : ℚ :=
  chance (List.replicate N m) (fun t => Succeeds job (t, u) good)

/-- A job whose runs end after at most `K` draws with one result, need no more than some amount of fuel, and do not depend on what runs before them
have left behind, except for the draws that are left. -/
structure Trial (m K : Nat) (job : Nat → M (List Nat × τ) (Data T)) : Prop where
  steady : ∀ f d s, job f s ≠ .error .fuel → job (f + d) s = job f s
  fresh : ∀ f t u u', job f (t, u) = job f (t, u')
  runs : ∃ F, (∀ s, ∃ d s' a, job F s = .ok (d, s') ∧ d.1.results = [some a]) ∧ ∀ u, Ends m (fun d _ => ∃ a, d.1.results = [some a]) K (fun t => job F (t, u))

/-- With enough draws for each thread, the number of results with any given property has the binomial distribution, whatever the scheduler does. -/
def CountsBinomially (m total cpu : Nat) (job : Nat → M (List Nat × τ) (Data (List F32))) : Prop :=
  ∃ K, ∀ N, K ≤ N → ∀ (u : Nat → τ) (good : Solution (List F32) → Bool) (k : Nat),
    chance (List.replicate (cpu * N) m) (fun t => Counts (StatPrograms.threads total cpu job (pieces N u t)) good k) =
      binomial (cpu * (total / cpu)) k (successChance m N job (u 0) (fun a => good a = true))

/-- The printed success rate is a good estimate: with enough draws for each thread, the chance is at most `p (1 - p) / (n δ ^ 2)` that the program
prints a success rate that differs from the chance `p` that a single run succeeds by `δ` and the rounding error or more. The program does `n` runs. -/
def Estimates (m total cpu : Nat) (job : Nat → M (List Nat × τ) (Data (List F32))) (profile : Profile) (valid delta : List F32) : Prop :=
  ∃ K, ∀ N, K ≤ N → ∀ (u : Nat → τ) (δ p : ℚ), 0 < δ → p = successChance m N job (u 0) (fun a => Close valid delta a.1) →
    chance (List.replicate (cpu * N) m) (fun t => ∃ acc, ∃ s : List Nat × τ, ∃ printed s', Finishes (StatPrograms.threads total cpu job (pieces N u t)) acc ∧
      StatPrograms.report profile valid delta acc s = .ok (printed, s') ∧ (δ : ℝ) + 1 / 2 ^ 52 ≤ |value printed.2.1 - p|) ≤
    p * (1 - p) / ((cpu * (total / cpu) : Nat) * δ ^ 2)

end Verif.Spec
