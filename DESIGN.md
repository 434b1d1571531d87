# Design: a Lean 4 model of `optlib` / `optlib-testfunc`

Subject: `/repo` (Rust): `optlib/src/**` and `optlib-testfunc/src/lib.rs`;
the programs `optlib/examples/genetic-{paraboloid,rastrigin,rosenbrock,schwefel,schwefel-iterative}.rs` and
`optlib/examples/particleswarm-{paraboloid,rastrigin,rosenbrock,schwefel,schwefel-iterative}.rs`.
Properties: `properties.jsonl` (C01 ...).  Status per property: `MANIFEST.json`.

## 1. Layout

| Directory (under `lean/Verif/`) | Content |
|---|---|
| `Basic/`  | error values, the effect monad `M`, Hoare-style lemmas |
| `IEEE/`   | a format-generic, executable, bit-level model of IEEE-754 binary floats (f32, f64) and lemmas about rounding |
| `Model/`  | the model of the Rust code, function by function, each definition with the file and lines it models |
| `Spec/`   | small independent vocabulary used in property statements (no reference to the model's loops) |
| `Proofs/` | helper lemmas |
| `Props/`  | the property theorems, one file per group, each followed by an `example` that meets the hypotheses |

## 2. How the code is modelled

* **Panics.** Every Rust panic path (assert, index out of range, unwrap of None,
  arithmetic overflow with overflow checks, `Uniform::new` on an empty range)
  is an explicit `Except` error, `Err`. Functions are total Lean functions in
  `M σ α := σ → Except Err (α × σ)`.
  For caught panics (C87, C88) there is a second model of the optimizers, in
  `KM ω α := ω → Except Err α × ω`, which keeps the state a panic leaves behind.
* **Plug-ins.** Goal, Creator, Cross, Mutation, Pairing, Selection, PreBirth,
  StopChecker, Logger, velocity calculators and hooks are trait objects in Rust.
  They are modelled as *arbitrary* functions in `M σ`, over an arbitrary world
  `σ` which they share: they may be stateful, random, fail, and communicate.
  Theorems about the optimizers quantify over all of them.
* **Randomness.** `rand` is not modelled algorithmically. A generator is a
  structure whose sampling functions are arbitrary state transformers that meet
  the documented range contract of `Uniform`; theorems quantify over all of them.
  `Uniform::new` on an empty range is an error.
* **Loops.** `for` loops are structural recursion or folds over lists. The
  `while !stop_checker.can_stop(..)` loop is recursion on fuel with the error `fuel`
  when exhausted; partial-correctness theorems hold for all fuel and termination
  theorems exhibit enough fuel. Fuel is no more than a bound: a call that does not
  run out of it does the same with any larger amount (`findMin_more`,
  `nextIterations_more` in `Proofs/MoreFuel.lean`, both optimizers).
* **Callback trace.** The optimizers carry a ghost trace of the callbacks they
  make (goal evaluations with argument and value, stop checks, logger events).
  It is invisible to the components and has no influence on the outcome
  (`blind_findMin`, `blind_nextIterations` in `Proofs/Blind.lean`, both optimizers).
* **Floats.** f32/f64 are modelled bit for bit in `IEEE/`: a value is a bit
  vector; comparison, +, -, *, /, sqrt, abs, neg, signum, int conversion and
  f64→f32 conversion are defined on the bits with round-to-nearest-even. NaN
  results of arithmetic are one canonical NaN (Rust leaves the payload
  unspecified); payloads are kept by operations that only move bits.
  `exp2`, `powf`, `sin`, `cos` are not computed by the code either but by libm: they are
  parameters with stated contracts, or are taken over the reals.
  Theorems that claim "in exact arithmetic" are about the same model text
  instantiated at the real numbers (`FloatT ℝ`), because the model functions are generic in
  the number type as the Rust code is generic in `num::Float`.
* **Build profile.** Shift/subtraction overflow is parameterised by
  `Profile` (`debug`: panic; `release`: wrap), as in rustc.
* **Integers.** `usize` is 64 bit where overflow matters (subtraction); counters that only grow
  by one per iteration are unbounded naturals (2^64 iterations are out of reach).

## 3. Plan per property

Model files are under `lean/Verif/Model/`, specification vocabulary under `lean/Verif/Spec/`. "Any" means the theorem quantifies
over arbitrary components, worlds, generators, build profiles and call histories.

| Id | What is modelled | How it is proved |
|---|---|---|
| C01, C02 | `Cross.crossU/crossS`: the `cross_*` functions on `BitVec w`, both profiles | bit-by-bit extensionality for shifts and masks, every width; panics and wraps by case analysis on the shift |
| C03 | `Cross.crossBitwise` on IEEE bit patterns | from C01 and the range contract of the generator |
| C04 | `Mutation.bitwise` loop | induction on the number of flips: Hamming distance bound and parity |
| C05, C06 | `Mutation.vec`, `Cross.vecCrossAllGenes` with any inner component | induction over genes |
| C07 | `Cross.crossMean`, generic in the number type | IEEE: monotonicity of rounding; exact: over the reals, induction |
| C08 | `Cross.crossGeomMean` | exact arithmetic, Mathlib `Real.rpow`; IEEE: the logarithm of the rounded product, by induction over the parents, for every `powf` with `AccuratePow` (Spec/Pow.lean) |
| C09 | `Cross.floatCrossExp` with `integer_decode` | range analysis of mantissa and exponent after splicing; NaN only from `0 * inf` |
| C10, C11 | `Creation.*` | induction; monotone `f64 -> f32` conversion |
| C12-C14, C17 | `Selection.*` filters | list induction |
| C15, C16, C18 | `Selection.killWorst` with its index list | loop invariants over the scan (`Inv`, `Inv2`, `Inv3`, `Inv4`) |
| C19-C21 | `Pairing.*` | induction over draws |
| C22, C23, C26, C27, C31, C32, C67 | `GA.*` and `PSO.*` with any components, ghost trace | Hoare invariants over the loop and over histories of calls |
| C24, C37 | both optimizers with (composites of) `MaxIterations` | measure: iterations left; enough fuel is exhibited |
| C25, C68 | both optimizers | equality of executions |
| C28, C41, C48, C66 | optimizer + library components | closed sets of points: invariants preserved by every component |
| C29, C30 | genetic optimizer with the library selections | invariants over generations; witnesses by evaluation |
| C33-C36 | `Stop.*` as state machines | induction over consultation histories; inside the optimizers through a private part of the world (`Lens`) |
| C38-C40 | `PSO.compareFloats`, `moveTo`, `updateBest`, `updateWorst` | case analysis on IEEE classes; history of each particle as an independent specification table |
| C42-C44 | `Hooks.*` | IEEE lemmas on products, square root; exact arithmetic over the reals; the float speed bound from the error model of `IEEE/Error.lean` (sum, squares, root, quotient) |
| C45-C47 | `Velocity.*` | componentwise equations; monotonicity of rounding |
| C49, C69 | `PSO.renewSwarm`, `PSO.step` | step relation written independently (`Spec/SwarmOrder.lean`) |
| C50, C51, C65 | `Stats.logger`, `Logging.*` as private loggers of any optimizer | every callback a logger gets is a function of the trace (`Spec/Record.lean`) |
| C52, C70 | wrapped goal, attached logger | simulation between the optimizer with and without the extra component (`Proofs/Sim.lean`, `Proofs/Beside.lean`) |
| C53-C60 | `Stats.*` | induction over runs; means and deviations over the reals; rounding bounds on IEEE |
| C61-C64 | `TestFunc.*` | IEEE sign lemmas; exact arithmetic with Mathlib trigonometry and rational interval bounds for `sin`; running error bounds (`Fl.sum_near`, each operation within `u|x| + tau`) for all four, with the accuracy of sine and cosine a parameter (`Spec.AccurateTrig`); `accurate_exists` shows that such functions exist |
| C71 | `Examples.genetic*` and any optimizer of that form | invariant "somebody alive has a finite value" through one generation, `Spec/Lasting.lean`; termination by iterations left; TimeLogger by C70 |
| C72 | `TestFunc.*` on IEEE | bounds that are floats themselves are kept by rounding (`Proofs/Within.lean`); induction over the coordinates |
| C73 | swarm loop and genetic loop with `GoalNotChange` | potential: (changes the goal can still make) * (m + 1) + iterations left without a change; changes counted by the rank of the best value among all floats, or by the distance covered (`Proofs/Stagnate.lean`) |
| C74 | both optimizers with a stop checker that contains one new `GoalNotChange` | invariant: the iteration at which it last saw a change is not in the future, so its subtraction does not wrap; simulation of the two builds (`Proofs/Checked.lean`). Any history: a simulation in which the checked build may stop with an overflow (`Proofs/Overflow.lean`) |
| C75 | `Examples.swarm*` and any swarm of that form | C39 (best of all evaluations), C41 (box), C48 (shape, termination), C72 (finite goals), C74 (checked builds), C70 (TimeLogger) put together |
| C76 | `Model/Workers.lean`: the main thread, the workers and the channel as a transition system with a free scheduler | invariant over all executions that names the order in which the threads have sent; a measure for the number of steps; construction of an execution for each order |
| C77 | `StatPrograms.swarm*`, `StatPrograms.swarmJob` (`Model/StatPrograms.lean`) | C75 for the run without counter and logger, C52 and C70 to add them, C50 for the row; `Proofs/SwarmRow.lean` says which points had been evaluated at each entry; GoalNotChange bounds the program without MaxIterations; the genetic runs alike with C71, `Proofs/GeneticRow.lean` for the row and `Proofs/GeneticFuel.lean` for a run that is cut off; that genetic-rosenbrock-statistics always ends is not claimed, its best may get worse (C29) |
| C78 | `Workers.Step`, `StatPrograms.threads`, `lookups`, `report` | C76 with the job of each program; `Proofs/MoreFuel.lean` shows that a run that ends does the same with any larger bound, so C77 holds of each run that returns; C53 to C59 for the report |
| C79 | `IntGenes.crossMean`, `IntTy.add` | the loop adds exactly while the partial sums are in the range, wraps modulo `2^width` otherwise; bounds of the truncated quotient |
| C80 | `IntGenes.RandomCreator`, `createVec`, `randomInit`, `zeroInit` | integers up to `2^53` are exact in `f64`; truncation of a number between two integers stays between them |
| C81 | `GA` with `IntGenes` components | the components are `Lasting` and `Closed` in the intervals, as in C71 and C28 |
| C82 | `PSO.step`, `Hooks` | invariant of the run: the corrected velocities are limited, and the move adds the corrected velocity |
| C83 | `Stats`, `Cross.crossMean` | error model of `IEEE/Error.lean`: each operation has a relative error `u` or an absolute one of half a unit; induction over the sum |
| C84 | `Stats.stdDevGoal`, `Stats.stdDev` | the same for squares, quotient and root; the triangle inequality moves from the computed to the exact mean |
| C85 | `TestPrograms.*`: the six integration tests with their assertions | C48, C71 (termination), C72 (finite goals) and C74 (checked builds) for the run; C50 and C70 for the recorded statistics; a computed sum of squares is at least each of its squares, so a small goal value bounds each coordinate; C76 for the threads; the rounded success rate is compared with 0.75 by monotonicity of rounding |
| C86 | `PSO.step`, `PSO.turns`, `Hooks.maxVelocityAbs` | NaN/finite/infinite cases of the computed length give `Slow` for every corrected velocity, lifted to histories with the invariant of C82; the addition is rounded to nearest, so a coordinate moves by at most twice the component (`Fl.add_moves`); induction over the turns with the triangle inequality gives the distance after `k` turns. |
| C87 | `Caught.GA.*`: the optimizer in a state monad that keeps the state when a panic passes through; selections work in place | refinement: without a panic it is the model of the other properties (`view`), and every optimizer of that model is one of these (`keep`); Hoare triples with a postcondition for panics lift an invariant through every public call (`Caught.GA.Inv`); instances: everything evaluated, box, replay of the events since the start of the call, count of generations, extremes |
| C88 | `Caught.PSO.*`: the swarm in the same monad; particles are moved in place | as C87; the invariants are indexed by the number of particles moved in the current iteration (`Caught.PSO.Inv`); instances: everything evaluated, box, replay of the events, count, best and worst monotone, personal best and worst of each particle's goal calls, extremes; the part of `find_min` before the swarm is replaced is shown not to read or write it (`Blind`) |
| C89 | the example programs of C71 and C75, `Spec.Exact.*` (the four functions over the reals) | C62-C64 and C61's error bounds specialised to `f32` and the boxes of the programs, joined with what C71 and C75 say about the returned point; two ordered values near the exact ones give nearly ordered exact values (`near_order`) |
| C90 | genetic and swarm optimizer, `Population.updateBestWorst`, `Swarm.updateBest`; vocabulary in Spec/Ties.lean | induction over `min_by`/`max_by`, invariants over histories |
| C91 | `Pairing.tournament`, `randomPairing` on a tape of draws | counting of tapes (Spec/Chance.lean); recursion over the challengers, geometric sums, product rule for disjoint parts of the tape |
| C92 | `Mutation.bitwise`, `Cross.crossBitwise` on a tape of draws | counting of tapes; induction over the flips on the Hamming distance |
| C93 | `Mutation.vec` with a source that takes floats from a finite list of values | counting of tapes; product rule; counting of evenly spread values below a bound |
| C94 | `Cross.floatCrossExp` with `integer_decode` | a splice of two numbers of one aligned block of length 2^k stays in it (shifted bit vectors); exactness of short products, monotone rounding |
| C95 | the turns of `find_min` and `next_iterations` with the three two-term velocity calculators, over ℝ | every particle moves once per turn by the formula of C45, hence a linear recurrence of order two; a quadratic Lyapunov function (sum of its decreases is finite), a conserved quadratic form for the classic calculator, an invariant cone for escape |
| C96 | the whole genetic loop with `VecCrossAllGenes` over `CrossBitwise` and `CrossMean`, `VecMutation` | invariant of the loop relative to the chromosomes last created; gene by gene: splices take each bit from a parent (C03), means lie between the parents (C07) and sums of genes between created ones do not overflow, a probability not above 0 changes nothing (C05) |
| C97 | the whole swarm loop with the four velocity calculators over floats, the velocity and position hooks | invariant of the loop relative to the coordinates last created: the differences to the bests are exact zeros, random factors between 0 and 1 keep the products finite, sums with zeros are exact |
| C98 | both optimizers, the pairing methods, selections, pre-births, velocity calculators and stop checkers, compared with the same on another goal | `Spec/Rank.lean` states what corresponding values, points, states and events are; the proof is a logical relation: each step of the two loops takes corresponding states to corresponding ones |
| C99 | the genetic optimizer over two types of chromosomes | the same logical relation with any relation between the chromosomes |
| C100 | the swarm optimizer with all velocity calculators, hooks and stop checkers, on mirrored positions; over the reals also in other units | `Spec/Mirror.lean` states what mirrored points are; the logical relation of C98 with relations for positions and velocities; the float operations commute with the sign (round to nearest is symmetric) |
| C101 | the velocity calculators, LinearInertia and the constructor of the canonical calculator, over floats | `Proofs/Approx.lean`: a calculus of rounding errors (number of roundings, what is added up, underflow) on top of the error of a single operation; compared with the formulas over the reals |
| C102 | RandomCreator, the swarm initializers and RandomTeleport over floats, with a random source that reads the numbers of its draws from a tape | `Spec/ChanceFloat.lean` (shares of draws, even spread); the computation takes exactly one draw for each gene, so the tapes split and the chances multiply |
| C103 | the same for integer genes (`Model/IntGenes.lean`) | the whole part of a draw is `v` exactly on an interval; differences of the shares below its ends |
| C104 | the whole of `find_min` of the swarm with components that read a tape of draws (`Model/Swarm.lean`, `Model/Hooks.lean`) | a program logic for lower bounds of mean values over the draws (`Mean` in `Proofs/Finds.lean`), carried through hooks, particles, iterations; the library's components read boundedly many draws (`Proofs/FindsLib.lean`) |
| C105 | `BitwiseMutation` (`Model/Mutation.lean`), applied again and again | n mutations of k flips are one of n·k flips; induction on the number of flips, each towards the target while a bit differs; parity of the Hamming distance as the invariant for the impossibility |
| C106 | the velocity calculators and correctors, MoveToBoundary, the loop; the example and statistics programs | rounding is monotone, so the formula with the largest arguments bounds the computed velocity; invariant over the history: all coordinates in the box, all velocities at most B; NaN is kept by every operation of the formulas, induction on the turns |
| C107 | CrossBitwise, VecCrossAllGenes, BitwiseMutation, VecMutation, CheckChromoInterval (both), the whole optimizer | flipping and splicing bits commute with XOR by a mask; gene by gene along the chromosome; then the relation between two optimizers of C99 |
| C108 | RandomCoordinatesInitializer, RandomCreator, `find_min` of both optimizers | the mean-value logic of C104 for the draws of the initial points; the points of the beginning are the initializer's (trace invariant); evaluated points are never beaten by the result (C39; for the genetic search an invariant over generations with selections that keep the best) |
| C109 | VecMutation, BitwiseMutation, Tournament, the generation and the loop of the genetic optimizer | the mean-value logic of C104 along a generation: every child multiplies the chance of missing the region by 1 - q; a tape of draws that flips exactly the bits wanted is given gene by gene; for RandomPairing with one individual an invariant over histories |
| C110 | the statistics programs, their threads and report; all components of the optimizers in them | every run is a tree of draws (structural induction over all components), so it reads a bounded piece of the tape and leaves the rest; the mean value over the tape is computed run by run and thread by thread, with the merge of C76 for any schedule; Chebyshev's inequality and the rounding bound of C83 |
| C111 | `run` of both optimizers with any number of `find_min` calls | the trace has no influence on the outcome (structural induction, `Proofs/Blind.lean`) and `find_min` begins anew (C25), so the results are those of one computation repeated on what is left of the tape; then the mean-value logic of C110. The library's components are trees of draws (`Spec/Scan.lean`) |
| C112 | `run` of both optimizers with `find_min`, `set_stop_checker` and `next_iterations`, in parts and in one go | simulation of the two histories up to the loggers' fields (`Proofs/Split.lean`): a loop that is broken off and taken up again does the iterations of the whole loop; induction on the number of parts and of turns. The checkers' answers are idempotent; the best particle only improves |
| C113 | `main` of the statistics programs up to `print_statistics`, with `get_average_goal` and `get_standard_deviation_goal` | the results of all threads are, up to their order, a sequence of independent runs on one tape (`Proofs/Average.lean`, the mean-value logic of C110 with lists of results); mean value of a quadratic polynomial in the sum and the sum of squares by induction on the number of runs; Chebyshev's inequality; C83 for the rounding error |
| C114 | `main` of the statistics programs up to `print_statistics`, with `CallCountData` and its average | the counters of all threads are, up to their order, a sequence of independent runs on one tape (`Proofs/Average.lean`, as for C113, with the counters in place of the solutions); the variance of a number between 0 and b is at most mu (b - mu); Chebyshev's inequality; C53 for the rounding, C77 for the bounds |
| C115 | `main` of the statistics programs up to `print_convergence_statistics`, with `get_average_convergence` | the rows of all threads are, up to their order, a sequence of independent runs on one tape (as for C113); a sequence of runs that all meet a condition has the mean values of the conditional runs times p^n, by induction, so that the moments of C113 apply to them; C57 for what is printed, C83 for the rounding |
| C116 | `get_average_convergence` and `get_average_goal` on the data of the swarm statistics programs | each row falls by the faithful record of C77; rounded addition of finite numbers and division by a positive number keep the order, so the averages, taken in the same order of runs, fall too; `whole` of C78 for the schedules |
| C117 | two executions of `main` of the statistics programs with the same seeds and different schedules, up to what is printed | a thread does the same runs in each execution since a run that has ended does not depend on the fuel; so by C76 the data are the same up to the order of the threads; counts, rate and call average do not depend on the order; the bounds of C83 and C84 on both sides, around the same exact value, for the averages and the deviation |
| C118 | `get_success_rate`, the predicates, `unite`, `get_average_goal`, `get_average_convergence`, `get_average_call_count` | the quotient of two natural numbers is rounded once and rounding is monotone; sums of finite numbers keep the order under rounding (C116) |
| C119 | `BitwiseMutation`, `CrossBitwise`, `VecMutation`, `Tournament`, `RandomPairing` with a tape of draws | the mean over all tapes is linear: the number of changed bits or genes and of places is a sum of indicators, whose means are the chances of C91–C93 |
| C120 | the four velocity calculators over the real numbers, with a tape of draws | the new velocity is linear in independent draws, so its mean is that of the formula and the variances of the terms are added; induction over the coordinates (each takes its own draws) |
| C121 | `find_min` of the swarm over the real numbers with a constant goal, `MaxIterations` and a tape of draws; three velocity calculators | no best point ever changes (induction over the moves of an iteration and over the iterations), each particle takes its own draws, and the mean after t iterations is affine in the place and velocity before, so the means follow the recurrence of C95 with the mean draw in place of the steady one |
| C122 | as C121 | the mean square of the last velocity is at least its variance, given all draws before (C120), and the two pulls cannot both vanish (Cauchy's inequality); induction over the moves and the iterations |

Where a natural claim turned out **false** of the code, the property in `properties.jsonl` states what is true, including the exception,
and the exception is proved with a concrete witness:

| Id | What one would expect, and the theorem that refutes it |
|---|---|
| C07 | the mean of more than two floating-point parents lies between them: `C07_many_witness` |
| C08 | the geometric mean of equal positive finite parents is near them: `C08_underflow_witness` |
| C09 | a child is never NaN: `C09_nan_witness` |
| C15 | `LimitPopulation` enforces its limit: `C15_exceeded_witness`, `C15_nan_first` |
| C16 | `kill_worst` kills the worst: `C16_kills_best_witness` |
| C18 | `kill_worst(0)` kills nobody: `C18_zero_kills_one` |
| C29 | the best never gets worse: `C29_worse_witness` |
| C35 | a stop checker can be reused: `C35_not_reusable_debug`, `C35_not_reusable_release` |
| C46 | the inertia weight stays above `w_min` until `t_max`: `C46_undershoots` |
| C51 | a logger tolerates any call order: `C51_swarm_false` |
| C57 | the documentation of `get_average_convergence`: `C57_docs_wrong` |
| C59 | the vector predicate rejects NaN and wrong lengths: `C59_vec_holes` |
| C60 | merging in another order gives the same average: `C60_rounding_order` (last bit differs) |
| C85 | the two-run test of genetic-stat-paraboloid.rs cannot fail: `C85_stat_two_witness` |
| C87 | a killed individual never becomes a parent, also when a panic of a selection was caught: `C87_dead_parents_witness` (kills of `CheckChromoInterval` before its assertion fails: `C87_interval_witness`) |
| C88 | the returned point is the best one evaluated in the run, also when a panic was caught in the run: `C88_lost_best_witness` |
| C90 | of several equally good individuals the first is reported, also if all fitnesses are NaN: `C90_nan_witness` |
| C91 | an individual with NaN fitness does not become a parent by tournament: `C91_nan` |
| C94 | the child of two finite numbers is finite, of two positive numbers positive: `C94_infinite`, `C94_zero` |
| C95 | the constriction factor keeps particles from running away: `C95_canonical_random`; the classic calculator lets particles settle: `C95_classic` |
| C97 | a single particle searches, only more slowly: `C97_together`; a velocity limit never speeds a particle up: `C97_negative_limit` |
| C98 | only the order of the goal values matters, whatever the components: `C98_goalNotChange_witness`, `C98_threshold_witness` |
| C100 | the mirrored swarm makes the mirrored run with every component: `C100_boundary_witness` |
| C101 | velocities have a small relative error: `C101_underflow_witness` |
| C103 | the integers of an interval are equally likely: `C103_last`, `C103_zero`, `C103_unequal_witness` |
| C106 | velocities are always numbers when MaxVelocityAbs limits them: `C106_wild_witness` |
| C107 | the mirrored search with CrossMean is the mirror image of the search: `C107_mean_witness` (the mean of 1 and -1 is +0 both ways, and the next bitwise step tells +0 from -0) |
| C108 | the genetic search never returns a worse value than one it has evaluated: `C108_limit_witness` (LimitPopulation can kill the best individual) |
| C109 | the genetic search with mutation goes on finding new points: `C109_stalls` (RandomPairing and one individual: no pair, no child) |
| C110 | one printed success rate is near the true one: `C110_spread_witness` (two runs of a coin are both good or both bad with chance 1/2) |
| C111 | restarts are independent whatever the components are: `C111_state_witness` (a used `GoalNotChange` ends the second run at once) |
| C112 | the run in parts equals the run in one go for every stop checker: `C112_checker_witness` (a new `GoalNotChange` counts anew) |
| C112 | more generations never give a worse answer: `C112_genetic_worse` (`LimitPopulation` loses it) |
| C113 | the printed standard deviation is right on average: `C113_deviation_witness` (two throws of a coin: the root of 1/8 in place of 1/2) |
| C115 | the averaged convergence at iteration i estimates the mean best goal of a run by then: `C115_early_witness` (it is printed only if no run has stopped; the mean goal of a run is 1/2 already after the first iteration, but the second entry, when printed, is 1) |
| C116 | the averaged convergence of a genetic program does not rise either: `C116_genetic_witness` (the entries are 1 and 2) |
| C117 | with the same random numbers a statistics program prints the same averages, whatever the scheduler does: `C117_rounding_witness` (2^53, 1 and 1 from three threads are summed in two orders) |
| C118 | the average goal lies between the least and the greatest goal: `C118_average_outside` (0.1 three times) |
| C119 | `BitwiseMutation` with k changes changes k bits: on average fewer (`C119_mutation_less`) |
| C121 | over flat ground a swarm comes to rest: on average it runs away if it is pulled too hard (`C121_inertia_escapes`) and circles with `ClassicVelocityCalculator` (`C121_classic`) |
| C122 | where the mean position converges, the particle comes to rest: not if it starts elsewhere than the first particle (`C122_canonical`, `C122_inertia`) |
| C82, C86 | a velocity limit also holds before the first iteration: `C82_initial_witness`, `C86_initial_witness` |

## 4. Trusted base

* Lean 4.33.0's kernel and the axioms `propext`, `Classical.choice`, `Quot.sound`. `#print axioms` on every theorem of the
  manifest lists a subset of these three. There are no own axioms, no `sorry`, no `native_decide`/`bv_decide`; concrete runs are evaluated
  by the kernel (`decide +kernel`).
* The faithfulness of the hand translation from Rust. Every definition cites its file and lines.
* Contracts of external code, each an explicit hypothesis or structure field:
  * `rand 0.7.3`: `Uniform` stays inside its range, panics on an empty one (`Rng` in `Model/Rng.lean`). Bounds that
    are not finite are a range error. The contract is assumed also for finite bounds whose difference overflows.
  * `num-traits`: `NumCast` between floats rounds to nearest; from `f64` to an integer type it cuts off the fraction and gives nothing outside the range, from an integer to `f64` it rounds to nearest, from `usize` it gives nothing outside the range; `integer_decode` is modelled as its source reads; `powi(2)` is `x * x`.
  * libm: `exp2` is exact on integers (`Exp2OnIntegers`, used only for C09 and C94). `sin`, `cos`, `powf` occur in exact-arithmetic theorems,
    in C71, C72 with the hypothesis `SinCos` (finite arguments give values in [-1, 1]), and in the error bounds of C08, C63, C64, C89 with
    an accuracy as hypothesis (`AccuratePow`, `AccurateTrig`).
  * The standard library: `min_by` returns the first minimum, `max_by` the last maximum, `retain` keeps order, `sum` adds from the left.
* That IEEE arithmetic is as in `IEEE/Basic.lean`: one rounding to nearest even per operation, as on targets with SSE2 or NEON.
  The bit-level definitions were compared with the machine's `Float`/`Float32` on random and special operands outside the proofs
  (`testing/ieee_difftest.lean.txt`); this is a test and no theorem depends on it.

## 5. What is modelled, what is not

Modelled: `optlib/src/lib.rs`, `genetic/**`, `particleswarm/**`, `tools/**` (non-test code) and `optlib-testfunc/src/lib.rs`;
the programs `optlib/examples/genetic-{paraboloid,rastrigin,rosenbrock,schwefel,schwefel-iterative}.rs` and
`optlib/examples/particleswarm-{paraboloid,rastrigin,rosenbrock,schwefel,schwefel-iterative}.rs`;
`create_optimizer` and `main` of the seven `optlib/examples/*-statistics*.rs` up to the printing, as threads whose steps are whole runs, and the numbers they print;
the six integration tests `optlib/tests/*.rs` with their assertions (the text of a failure is not modelled).

Not modelled:

* Failure to start a thread, and threads that share state other than the channel in the statistics programs (there is none: `thread_rng` is per thread).
* The text of a formatted float in the loggers (a parameter), and the wall clock (a parameter that returns milliseconds).
* Memory, allocation failure, `capacity` hints. Stack unwinding: in the properties up to C86 a panic ends the history; C87 and C88 model what is left in the optimizer when the caller catches the panic. Panics in `Clone` and `Drop` of user types and a second panic during unwinding (abort) are out of scope.
* Overflow of the iteration counter and of vector lengths beyond `2^64`.
* Integer genes other than the primitive integer types. (In the particle swarm the initializers accept integers, see C80. The optimizer requires `Float`, and particles cannot be made outside it.)
* NaN payloads produced by arithmetic (one canonical NaN).
* The distribution of random numbers: theorems hold for every stream that meets the range contract. C91–C93, C102–C104, C108–C111, C113–C115 and C119–C122 state chances as shares of the
  sequences of draws, all taken as equally likely; that `rand` draws them so, for C110 independently in each thread, is assumed. Nothing is said about convergence in distribution.
* Selections written by users get the population by `&mut`, whose fields are private: they can only kill individuals or read them. Theorems that need this carry
  it as the hypothesis `LegalSelection`.
* libm's `sin`, `cos` and `pow` themselves: theorems that need them assume a range (`SinCos`), an accuracy (`AccurateTrig`, `AccuratePow`) or nothing.
