import Verif.Spec.SwarmProgram
import Verif.Model.StatPrograms
import Verif.Spec.Workers
import Verif.Spec.Stats

/-!
# Specification vocabulary: what the statistics programs record
-/

namespace Verif.Spec

open Verif Stats Workers

/-- A faithful record of one run of a swarm of `n` particles: one result, one row and one counter. There is a list of points,
`n` for the initial swarm and `n` for each entry of the row, at most `m` entries, such that the counter is the number of
points, the result is the best of them, and entry `i` of the row is the best of the points up to then. -/
def SwarmRecord (n m : Nat) (ivs : List (F32 × F32)) (value : List F32 → F64 → Prop) (d : Data (List F32)) : Prop :=
  ∃ ps a row, d = (⟨[some a], [row]⟩, [n * (row.length + 1)]) ∧ ps.length = n * (row.length + 1) ∧ row.length ≤ m ∧
    BestOfRun ivs value ps a ∧ (row = [] ∨ row.getLast? = some (some a)) ∧
    ∀ i (h : i < row.length), ∃ b, row[i] = some b ∧ BestOfRun ivs value (ps.take (n * (i + 2))) b

/-- A faithful record of one run of a genetic optimizer that starts with `size` individuals and gets at most `births` new ones
in a generation: one result, one row with one to `m` entries and one counter. There is a list of points, all in the box, with
their finite goal values, `size` of them and at most `births` more for each entry of the row, such that the counter is the
number of points, the result is the last entry of the row and entry `i` of the row is one of the points up to then. -/
def GeneticRecord (size births m : Nat) (ivs : List (F32 × F32)) (value : List F32 → F64 → Prop) (d : Data (List F32)) : Prop :=
  ∃ ps a row, d = (⟨[some a], [row]⟩, [List.length ps]) ∧ 1 ≤ row.length ∧ row.length ≤ m ∧
    size ≤ ps.length ∧ ps.length ≤ size + births * row.length ∧ row.getLast? = some (some a) ∧
    (∀ b ∈ ps, InBox ivs b.1 ∧ value b.1 b.2 ∧ b.2.isFinite = true) ∧
    ∀ i (h : i < row.length), ∃ b, row[i] = some b ∧ b ∈ ps.take (size + births * (i + 1))

/-- No coordinate is farther from the valid answer than the delta for it. -/
def Close (valid delta xs : List F32) : Prop :=
  ∀ (i : Nat) (x e d : F32), xs[i]? = some x → valid[i]? = some e → delta[i]? = some d → d.lt (x.sub e).abs = false

/-- The report on `runs` runs is made without panic. It lists all results. The averaged convergence is as long as the shortest
row and has a value everywhere. The success rate is the number of close results by the number of runs, the deviation is not
negative and the call count is the sum of the counters by the number of runs. -/
def Printed {σ : Type} (profile : Profile) (valid delta : List F32) (runs : Nat) (d : Data (List F32)) : Prop :=
  ∀ s : σ, ∃ conv rate average deviation calls,
    StatPrograms.lookups d s = .ok ((d.1.results, conv), s) ∧
    none ∉ conv ∧ (∀ row ∈ d.1.convergence, conv.length ≤ row.length) ∧ (∃ row ∈ d.1.convergence, conv.length = row.length) ∧
    StatPrograms.report profile valid delta d s = .ok ((runs, rate, average, deviation, calls), s) ∧
    (∃ good, (∀ a, good a = true ↔ Close valid delta a.1) ∧
      rate = Fl.div (Fl.ofNat (accepted d.1.results good)) (Fl.ofNat runs)) ∧
    Fl.zero.le rate = true ∧ rate.le Fl.one = true ∧ deviation.lt Fl.zero = false ∧
    calls = Fl.div (Fl.ofNat d.2.sum) (Fl.ofNat runs)

/-- Whatever the scheduler does, a program of this form ends, namely with the data of `cpu * (total / cpu)` runs, each with a
record as it should be, and then the output is as it should be. -/
def Reports {σ : Type} (total cpu : Nat) (job : Nat → M σ (Data (List F32))) (seed : Nat → σ)
    (record : Data (List F32) → Prop) (output : Nat → Data (List F32) → Prop) : Prop :=
  ∀ n y, Steps (StatPrograms.threads total cpu job seed) n .start y →
    n ≤ cpu * (total / cpu + 3) + 2 ∧
    (Stuck (StatPrograms.threads total cpu job seed) y ↔ ∃ acc, y.main = .finished acc) ∧
    ∀ acc, y.main = .finished acc →
      (∃ ds : List (Data (List F32)), ds.length = cpu * (total / cpu) ∧ (∀ d ∈ ds, record d) ∧ Merged ds acc) ∧
      output (cpu * (total / cpu)) acc

end Verif.Spec
