{
 "claims": [
  {
   "property": "C01",
   "status": "proved",
   "theorems": [
    "Verif.Props.C01_cross_u64",
    "Verif.Props.C01_cross_u32",
    "Verif.Props.C01_cross_u16",
    "Verif.Props.C01_cross_u8",
    "Verif.Props.C01_cross_i16",
    "Verif.Props.C01_cross_i8",
    "Verif.Props.C01_splice_unique"
   ],
   "note": "C01_cross_u64: `cross_u64`; C01_cross_u32: `cross_u32`; C01_cross_u16: `cross_u16`; C01_cross_u8: `cross_u8`; C01_cross_i16: `cross_i16`. (Holds for `pos = 0` as well.); C01_cross_i8: `cross_i8`; C01_splice_unique: The splice determines the child: there is only one"
  },
  {
   "property": "C02",
   "status": "proved",
   "theorems": [
    "Verif.Props.C02_unsigned_zero",
    "Verif.Props.C02_unsigned_zero_all",
    "Verif.Props.C02_signed_zero",
    "Verif.Props.C02_beyond",
    "Verif.Props.C02_beyond_all",
    "Verif.Props.C02_wrap",
    "Verif.Props.C02_wrap_all"
   ],
   "note": "C02_unsigned_zero: position 0 on the unsigned types of any positive width: panic with overflow checks, bitwise OR without; C02_unsigned_zero_all: the four unsigned functions at position 0; C02_signed_zero: the signed functions at position 0 return the first parent, in both profiles; C02_beyond: with overflow checks no crossing returns a value at `pos ≥ width`; C02_beyond_all: the six functions at `pos ≥ width`; C02_wrap: without overflow checks a position counts modulo the width: every position up to the largest `usize` gives what its remainder gives, on both families of types; C02_wrap_all: the six functions without overflow checks, at any position that is a multiple of the width"
  },
  {
   "property": "C03",
   "status": "proved",
   "theorems": [
    "Verif.Props.C03_crossBitwise",
    "Verif.Props.C03_sign_and_low_bit",
    "Verif.Props.C03_wrong_arity"
   ],
   "note": "C03_crossBitwise: for two parents of any float format, `CrossBitwise` returns exactly one child: the splice of the parents' bit patterns at a position strictly inside the word; C03_sign_and_low_bit: consequence: the child has the sign of the first parent and the lowest bit of the second parent; C03_wrong_arity: any other number of parents makes it panic"
  },
  {
   "property": "C04",
   "status": "proved",
   "theorems": [
    "Verif.Props.C04_bitwise",
    "Verif.Props.C04_one",
    "Verif.Props.C04_zero"
   ],
   "note": "C04_bitwise: `BitwiseMutation(k)` never panics; the result differs from the gene in at most `k` bits, and the number of differing bits has the parity of `k`; C04_one: one flip: exactly one bit differs; C04_zero: no flip: the gene is returned unchanged and nothing is drawn"
  },
  {
   "property": "C05",
   "status": "proved",
   "theorems": [
    "Verif.Props.C05_vec",
    "Verif.Props.C05_never",
    "Verif.Props.C05_always",
    "Verif.Props.C05_total"
   ],
   "note": "C05_vec: the mutated chromosome has the same length and each gene is the original or a result of the single-gene mutation on it; C05_never: with a probability that is NaN or not above zero the chromosome is unchanged; the single-gene mutation is not called, so this never panics; C05_always: with a probability of at least 100 every gene goes through the single-gene mutation; C05_total: VecMutation panics only if the single-gene mutation does"
  },
  {
   "property": "C06",
   "status": "proved",
   "theorems": [
    "Verif.Props.C06_vecCross",
    "Verif.Props.C06_length",
    "Verif.Props.C06_wrong_arity",
    "Verif.Props.C06_short_second"
   ],
   "note": "C06_vecCross: on two parents where the second is at least as long as the first, `VecCrossAllGenes` *is* the program \"run the single-gene cross on each pair of genes in order, concatenate what it returns into one child\"; C06_length: if the single-gene cross returns one gene per call, the only child has as many genes as the first parent, and each of them is a result of the single cross on the two parent genes at that place; C06_wrong_arity: any other number of parents panics; C06_short_second: if the second parent is shorter, `VecCrossAllGenes` never returns (it panics on the index, unless the single cross panics before)"
  },
  {
   "property": "C07",
   "status": "proved",
   "theorems": [
    "Verif.Props.C07_many_witness",
    "Verif.Props.C07_between",
    "Verif.Props.C07_between_symm",
    "Verif.Props.C07_overflow_witness",
    "Verif.Props.C07_mean_exact",
    "Verif.Props.C07_mean_bounds",
    "Verif.Props.C07_few"
   ],
   "note": "C07_many_witness: with more than two parents the floating-point mean may leave their interval: ten times 0.1 has the mean 0.09999999999999999; C07_between: two finite float parents whose floating-point sum does not overflow have exactly one child; it is finite and lies between them; C07_between_symm: The order of the parents does not matter for the bounds; C07_overflow_witness: Without the overflow condition the claim is false: the mean of two equal huge numbers is infinite; C07_mean_exact: in exact arithmetic the child of `n ≥ 2` parents is their arithmetic mean; C07_mean_bounds: the exact mean lies between any lower and upper bound of the parents (so between their minimum and maximum); C07_few: fewer than two parents panic, for every number type"
  },
  {
   "property": "C08",
   "status": "proved",
   "theorems": [
    "Verif.Props.C08_float",
    "Verif.Props.C08_float_between",
    "Verif.Props.C08_underflow_witness",
    "Verif.Props.C08_doc",
    "Verif.Props.C08_geometric",
    "Verif.Props.C08_bounds",
    "Verif.Props.C08_few"
   ],
   "note": "C08_float: the one child of floating-point parents, `2 ≤ n ≤ 2 ^ 24` of them, all positive, such that no product of the first of them underflows or overflows, is their geometric mean `G` up to the relative error `ε` of the power function and the factor `exp (u (|log G| + 3))`; C08_float_between: the child of positive floating-point parents lies between them up to that error; C08_underflow_witness: without the condition on the products the claim is false; C08_doc: the assertions of the documentation's example hold with every power function accurate to `9e-8`; C08_geometric: in exact arithmetic the one child of `n ≥ 2` positive parents is the positive `n`-th root of their product; C08_bounds: it lies between any positive lower bound and any upper bound of the parents; C08_few: fewer than two parents panic"
  },
  {
   "property": "C09",
   "status": "proved",
   "theorems": [
    "Verif.Props.C09_one_child",
    "Verif.Props.C09_wrong_arity",
    "Verif.Props.C09_nan_witness",
    "Verif.Props.C09_nan_witness_f32",
    "Verif.Props.C09_not_nan",
    "Verif.Props.C09_self"
   ],
   "note": "C09_one_child: exactly one child, no panic, whatever the parents, the draws, the build profile and `exp2`; C09_wrong_arity: any other number of parents panics; C09_nan_witness: the exceptional case: a child of `2^60` and `0` is NaN; C09_nan_witness_f32: The same for `f32` and a negative zero; C09_not_nan: if the second parent is not zero, or the first is below `2^mw` in magnitude (`2^52` for `f64`, `2^23` for `f32`), no sequence of draws gives a NaN child; C09_self: crossing a finite number that is not subnormal (exponent field not zero) with itself gives exactly that number"
  },
  {
   "property": "C10",
   "status": "proved",
   "theorems": [
    "Verif.Props.C10_constructor",
    "Verif.Props.C10_create",
    "Verif.Props.C10_infinite"
   ],
   "note": "C10_constructor: the constructor succeeds exactly on a positive size and a non-empty list of increasing intervals, and otherwise panics; C10_create: on finite increasing intervals `create` returns, for every random source, exactly `population_size` chromosomes with one gene per interval, each inside its interval; `f` is any format that embeds in `f64` (`f32`, `f64`); C10_infinite: an infinite end passes the constructor, but then `create` panics"
  },
  {
   "property": "C11",
   "status": "proved",
   "theorems": [
    "Verif.Props.C11_random",
    "Verif.Props.C11_random_bad",
    "Verif.Props.C11_infinite",
    "Verif.Props.C11_random_none",
    "Verif.Props.C11_zero"
   ],
   "note": "C11_random: the random initializers return `particles_count` vectors inside the box; C11_random_bad: they panic if an interval is not increasing and a particle is requested …; C11_infinite: … or if an end is infinite or NaN …; C11_random_none: … and otherwise not: with no particles nothing is checked; C11_zero: zero velocities"
  },
  {
   "property": "C12",
   "status": "proved",
   "theorems": [
    "Verif.Props.C12_killFitnessNaN",
    "Verif.Props.C12_not_finite"
   ],
   "note": "C12_killFitnessNaN: `KillFitnessNaN` only kills, and an individual lives on iff it was alive with a finite fitness; C12_not_finite: NaN and both infinities are the values that are not finite"
  },
  {
   "property": "C13",
   "status": "proved",
   "theorems": [
    "Verif.Props.C13_checkInterval",
    "Verif.Props.C13_wrong_length",
    "Verif.Props.C13_any_ends"
   ],
   "note": "C13_checkInterval: with one gene per interval everywhere (and no NaN bound) the selection returns, only kills, and an individual lives on iff it was alive and all its genes are finite and inside their intervals; C13_wrong_length: one individual with a wrong number of genes makes it panic; C13_any_ends: with any interval ends: an individual lives on iff it was alive and all its genes are finite and not excluded by an end that is a number"
  },
  {
   "property": "C14",
   "status": "proved",
   "theorems": [
    "Verif.Props.C14_preBirth",
    "Verif.Props.C14_wrong_length",
    "Verif.Props.C14_any_ends"
   ],
   "note": "C14_preBirth: with one gene per interval everywhere the filter keeps, in order, exactly the chromosomes inside the box; C14_wrong_length: a chromosome with a wrong number of genes makes it panic; C14_any_ends: with any interval ends: the filter keeps, in order, exactly the chromosomes whose genes are finite and not excluded by an end that is a number"
  },
  {
   "property": "C15",
   "status": "proved",
   "theorems": [
    "Verif.Props.C15_limit",
    "Verif.Props.C15_exceeded_witness",
    "Verif.Props.C15_exceeded_after_nan_witness",
    "Verif.Props.C15_nan_first"
   ],
   "note": "C15_limit: `LimitPopulation` returns, only kills, leaves at least `min max alive` individuals and at most one more than that; and exactly `min max alive` if the first individual was alive; C15_exceeded_witness: fails when the first individual is dead: with limit 1 two individuals stay alive; C15_exceeded_after_nan_witness: The same through the usual pair of selections on a population in which all are alive; C15_nan_first: when the limit is always missed: the first individual is dead and its fitness is NaN, as after `KillFitnessNaN`, and more than `max` are alive"
  },
  {
   "property": "C16",
   "status": "proved",
   "theorems": [
    "Verif.Props.C16_killWorst",
    "Verif.Props.C16_first_bounds",
    "Verif.Props.C16_worst_dies",
    "Verif.Props.C16_one",
    "Verif.Props.C16_kills_best_witness"
   ],
   "note": "C16_killWorst: suppose no living individual has NaN fitness, the first individual is alive, and it is the best of the first `count` living ones; C16_first_bounds: (without a condition on the order): a survivor is worse than a killed individual only if it is not worse than the first individual of the population; C16_worst_dies: an individual (other than the first one) that is strictly worse than all other living ones is killed; C16_one: `count = 1`: the only conditions left are that the first individual is alive and nothing alive is NaN; C16_kills_best_witness: fails in general: of the fitness values 5, 1, 3 with `count = 2` the individuals 5 and 1 (the best) die"
  },
  {
   "property": "C17",
   "status": "proved",
   "theorems": [
    "Verif.Props.C17_one",
    "Verif.Props.C17_sequence"
   ],
   "note": "C17_one: whenever a library selection returns, it only killed; C17_sequence: so does any sequence of library selections, as the optimizer runs them"
  },
  {
   "property": "C18",
   "status": "proved",
   "theorems": [
    "Verif.Props.C18_empty",
    "Verif.Props.C18_zero",
    "Verif.Props.C18_zero_kills_one",
    "Verif.Props.C18_limit_total"
   ],
   "note": "C18_empty: `kill_worst` on an empty population panics; C18_zero: `count = 0` acts exactly like `count = 1`; C18_zero_kills_one: on a population in which all are alive `count = 0` kills exactly one individual; C18_limit_total: `LimitPopulation` never panics, not even on an empty or a dead population"
  },
  {
   "property": "C19",
   "status": "proved",
   "theorems": [
    "Verif.Props.C19_pairs"
   ],
   "note": "C19_pairs: on a non-empty population `RandomPairing` returns `len / 2` pairs of valid indices"
  },
  {
   "property": "C20",
   "status": "proved",
   "theorems": [
    "Verif.Props.C20_tournament",
    "Verif.Props.C20_shape",
    "Verif.Props.C20_built"
   ],
   "note": "C20_tournament: on a non-empty population the tournament draws, for each of `familiesCount` families and each of `partnersCount` partners, `roundsCount + 1` random individuals, and returns for each the winner among those drawn; C20_shape: so there are `familiesCount` families of `partnersCount` valid indices; C20_built: `Tournament::new(n)` plays one round for each partner of `n` pairs; `partners_count` and `rounds_count` change one of the two numbers each, in any order"
  },
  {
   "property": "C21",
   "status": "proved",
   "theorems": [
    "Verif.Props.C21_random",
    "Verif.Props.C21_tournament",
    "Verif.Props.C21_extinct",
    "Verif.Props.C21_run_witness"
   ],
   "note": "C21_random: both pairings panic on an empty population; C21_tournament: Tournament panics on a population without individuals; C21_extinct: a genetic optimizer (with any pairing that panics on empty populations) that stands at an extinct population and whose stop checker answers \"go on\" panics; C21_run_witness: A whole run that dies out and panics: the goal is NaN everywhere, `KillFitnessNaN` empties the population in the first generation, and the second one panics in the pairing"
  },
  {
   "property": "C22",
   "status": "proved",
   "theorems": [
    "Verif.Props.C22_evaluated",
    "Verif.Props.C22_returned",
    "Verif.Props.C22_goal",
    "Verif.Props.C22_pure",
    "Verif.Props.Swarm.C22_swarm_evaluated",
    "Verif.Props.Swarm.C22_swarm_returned",
    "Verif.Props.Swarm.C22_swarm_goal",
    "Verif.Props.Swarm.C22_swarm_pure"
   ],
   "note": "C22_evaluated: at every point of every history everything the optimizer holds or has shown to loggers and stop checkers had been evaluated with exactly the value shown; C22_returned: what a call returns was evaluated; C22_goal: every recorded goal value is what the goal object returned; C22_pure: with a pure goal function `g`, every individual's fitness is `g` of its chromosomes, and the pair returned by `find_min` or `next_iterations` satisfies `value = g(point)`; C22_swarm_evaluated: (swarm): at every point of every history everything the optimizer holds or has shown to loggers and stop checkers had been evaluated with exactly the value shown; C22_swarm_returned: (swarm): what a call returns was evaluated; C22_swarm_goal: (swarm): every recorded goal value is what the goal object returned; C22_swarm_pure: (swarm): with a pure goal function `g`, every particle's value is `g` of its coordinates, and the pair returned by `find_min` or `next_iterations` satisfies `value = g(point)`"
  },
  {
   "property": "C23",
   "status": "proved",
   "theorems": [
    "Verif.Props.C23_extremes",
    "Verif.Props.C23_state"
   ],
   "note": "C23_extremes: in every generation of every history, whatever the components do, the reported best and worst are extremal among the survivors (if there are any); C23_state: for the state itself: after at least one generation, if anyone is alive"
  },
  {
   "property": "C24",
   "status": "proved",
   "theorems": [
    "Verif.Props.C24_genetic_terminates",
    "Verif.Props.C24_genetic_next_terminates",
    "Verif.Props.C24_genetic_findMin",
    "Verif.Props.C24_genetic_nextIterations",
    "Verif.Props.Swarm.C24_swarm_findMin",
    "Verif.Props.Swarm.C24_swarm_nextIterations",
    "Verif.Props.Swarm.C24_swarm_terminates",
    "Verif.Props.Swarm.C24_swarm_next_terminates"
   ],
   "note": "C24_genetic_terminates: (genetic): with `MaxIterations(n)` the outcome of `find_min` is the same for every bound larger than `n` on the number of turns of its loop, so the unbounded loop of the program ends within `n` turns; C24_genetic_next_terminates: (genetic): likewise for `next_iterations`, which ends within the turns that are left; C24_genetic_findMin: (genetic): with `MaxIterations(n)` a `find_min` that returns has completed exactly `n` generations, numbered 1 to `n`; C24_genetic_nextIterations: (genetic): `next_iterations` with `MaxIterations(n)` continues to generation `n`, and does nothing if it is already reached: no generation and no goal call; C24_swarm_findMin: (swarm): with `MaxIterations(n)` a `find_min` that returns has completed exactly `n` iterations, numbered 1 to `n`; C24_swarm_nextIterations: (swarm): `next_iterations` with `MaxIterations(n)` continues to iteration `n`, and does nothing if it is already reached: no iteration and no goal call; C24_swarm_terminates: (swarm): with `MaxIterations(n)` the outcome of `find_min` is the same for every bound larger than `n` on the number of turns of its loop, so the unbounded loop of the program ends within `n` turns; C24_swarm_next_terminates: (swarm): likewise for `next_iterations`, which ends within the turns that are left"
  },
  {
   "property": "C25",
   "status": "proved",
   "theorems": [
    "Verif.Props.C25_genetic",
    "Verif.Props.C25_genetic_any",
    "Verif.Props.Swarm.C25_swarm",
    "Verif.Props.Swarm.C25_swarm_any"
   ],
   "note": "C25_genetic: (genetic): after any history, `find_min` behaves as on a freshly built optimizer with the components that are now plugged in; C25_genetic_any: (genetic), for arbitrary states; C25_swarm: (swarm): after any history, `find_min` behaves as on a freshly built optimizer with the components that are now plugged in; C25_swarm_any: (swarm), for arbitrary states"
  },
  {
   "property": "C26",
   "status": "proved",
   "theorems": [
    "Verif.Props.C26_genetic_findMin",
    "Verif.Props.C26_genetic_nextIterations",
    "Verif.Props.C26_none_witness",
    "Verif.Props.Swarm.C26_swarm_findMin",
    "Verif.Props.Swarm.C26_swarm_nextIterations"
   ],
   "note": "C26_genetic_findMin: (genetic): `find_min` returns the best solution of the final state, which is the one every logger was given by `finish`; without any generation that is `None`; after a generation with survivors it is the best survivor; C26_genetic_nextIterations: (genetic), for `next_iterations`; C26_none_witness: a run with `MaxIterations(0)` creates four individuals and returns `None`; C26_swarm_findMin: (swarm): `find_min` returns the best solution of the final state, which is the one every logger was given by `finish`; with at least one particle there always is one, even without any iteration; C26_swarm_nextIterations: (swarm), for `next_iterations`"
  },
  {
   "property": "C27",
   "status": "proved",
   "theorems": [
    "Verif.Props.C27_genetic",
    "Verif.Props.Swarm.C27_swarm",
    "Verif.Props.Swarm.C27_swarm_findMin"
   ],
   "note": "C27_genetic: (genetic): at every point of every history the goal has been called exactly on the created chromosomes and on the children that came through all pre-birth filters, once each and in that order; C27_swarm: (swarm): at every point of every history the goal has been called in the current run exactly `N * (k + 1)` times, `N` being the number of particles and `k` the number of iterations done; C27_swarm_findMin: (swarm): one call of `find_min` with `N` particles that does `k` iterations calls the goal exactly `N * (k + 1)` times, whatever happened before"
  },
  {
   "property": "C28",
   "status": "proved",
   "theorems": [
    "Verif.Props.C28_box",
    "Verif.Props.C28_returned"
   ],
   "note": "C28_box: at every point of every history all individuals are inside the intervals, the goal has only been called inside the intervals, and so is everything shown to loggers and stop checkers; C28_returned: what `find_min` and `next_iterations` return is inside the intervals"
  },
  {
   "property": "C29",
   "status": "proved",
   "theorems": [
    "Verif.Props.C29_best",
    "Verif.Props.C29_killFitnessNaN",
    "Verif.Props.C29_limit_one",
    "Verif.Props.C29_worse_witness"
   ],
   "note": "C29_best: with selections that keep the best individual, the best fitness never gets worse from one generation to the next, at any point of any history; C29_killFitnessNaN: KillFitnessNaN keeps the best individual; C29_limit_one: LimitPopulation keeps the best individual if at most one individual is in excess, the first one is alive and no living individual has a NaN fitness (as after KillFitnessNaN, from the second generation on); C29_worse_witness: fails with LimitPopulation: in this run with the library's selections the best fitness gets worse, from 1 to 2"
  },
  {
   "property": "C30",
   "status": "proved",
   "theorems": [
    "Verif.Props.C30_size",
    "Verif.Props.C30_size_library",
    "Verif.Props.C30_nothing_random",
    "Verif.Props.C30_first_witness"
   ],
   "note": "C30_size: at any point of any history, every generation so far had at most `n + 1` individuals, and at most `n` if it was not the first one (and the previous one had not died out); C30_size_library: without the proviso about extinction, for pairings and pre-births like those of the library; C30_nothing_random: The library's pairings and pre-birth filter meet the condition; C30_first_witness: the bound `n + 1` of the first generation is attained: three individuals after the first generation of an optimizer limited to two, then two"
  },
  {
   "property": "C31",
   "status": "proved",
   "theorems": [
    "Verif.Props.C31_genetic_findMin",
    "Verif.Props.C31_genetic_nextIterations",
    "Verif.Props.Swarm.C31_swarm_findMin",
    "Verif.Props.Swarm.C31_swarm_nextIterations"
   ],
   "note": "C31_genetic_findMin: (genetic, `find_min`): the complete list of logger calls; C31_genetic_nextIterations: (genetic, `next_iterations`): the complete list of logger calls; C31_swarm_findMin: (swarm, `find_min`): the complete list of logger calls; C31_swarm_nextIterations: (swarm, `next_iterations`): the complete list of logger calls"
  },
  {
   "property": "C32",
   "status": "proved",
   "theorems": [
    "Verif.Props.C32_pipeline"
   ],
   "note": "C32_pipeline: at any point of any history, the next turn of the loop is a generation in the sense of `Spec.Generation` (pairing, crossing, mutation, pre-birth, goal, selections, removal of the dead, in this order), followed by the loggers; and all individuals are alive when it begins"
  },
  {
   "property": "C33",
   "status": "proved",
   "theorems": [
    "Verif.Props.C33_threshold",
    "Verif.Props.C33_nan",
    "Verif.Props.C33_genetic",
    "Verif.Props.C33_swarm"
   ],
   "note": "C33_threshold: `Threshold(t)` stops iff there is a best solution whose goal value is at most `t`; neither is NaN then; C33_nan: a NaN threshold, or a NaN goal value, never stops; C33_genetic: whole runs: what a genetic `find_min` with `Threshold(t)` returns is at or below the threshold; C33_swarm: whole runs: what a swarm's `find_min` with `Threshold(t)` returns is at or below the threshold"
  },
  {
   "property": "C34",
   "status": "proved",
   "theorems": [
    "Verif.Props.C34_answers",
    "Verif.Props.C34_total",
    "Verif.Props.C34_not_early",
    "Verif.Props.C34_constant",
    "Verif.Props.C34_negative_delta",
    "Verif.Props.C34_genetic",
    "Verif.Props.C34_swarm"
   ],
   "note": "C34_answers: consulted in the order of the iterations, a new `GoalNotChange(m, d)` stops exactly when more than `m` iterations have passed since the goal last differed by more than `d` from its recorded value; C34_total: in both build profiles it always gives an answer (no underflow); C34_not_early: it never stops in the first `m` iterations, nor without a best solution; C34_constant: if `d` is not negative and the goal value is `g` from the state number `j` on, it stops as soon as more than `m` iterations have passed since then; C34_negative_delta: for a negative `d` even a constant finite goal never stops it; C34_genetic: whole runs: if a `GoalNotChange(m, d)` object of its own is the stop checker of a genetic optimizer, `find_min` consults it once per generation, at 0, 1, 2, ..., its answers follow the rule, and only the last one is `true`; so at least `m + 1` generations are done and there is a best solution; C34_swarm: whole runs of the particle swarm optimizer"
  },
  {
   "property": "C35",
   "status": "proved",
   "theorems": [
    "Verif.Props.C35_underflow",
    "Verif.Props.C35_not_reusable_debug",
    "Verif.Props.C35_not_reusable_release",
    "Verif.Props.C35_reuse"
   ],
   "note": "C35_underflow: why the property fails: if the goal is not more than `d` away from the recorded value and the iteration number is smaller than the recorded one, the subtraction underflows: a panic with overflow checks; without, the answer compares `m` with a number close to 2^64; C35_not_reusable_debug: with overflow checks the second `find_min` of this swarm panics, although all of its components work and the first one returns; C35_not_reusable_release: without overflow checks the second `find_min` stops before its first iteration; C35_reuse: if the first goal value of the second run differs by more than `d` from the last recorded one (and from `f64::MAX`), a used object behaves exactly as a new one"
  },
  {
   "property": "C36",
   "status": "proved",
   "theorems": [
    "Verif.Props.C36_any",
    "Verif.Props.C36_all",
    "Verif.Props.C36_any_panics",
    "Verif.Props.C36_all_panics",
    "Verif.Props.C36_new"
   ],
   "note": "C36_any: what `CompositeAny` answers: `true` after consulting the members in order up to the first that answers `true` and no further; `false` if all were consulted and all answered `false`; C36_all: what `CompositeAll` answers: `false` after consulting the members in order up to the first that answers `false` and no further; `true` if all were consulted and all answered `true`; C36_any_panics: `CompositeAny` panics iff one of the members does whose predecessors all answered `false`; C36_all_panics: `CompositeAll` panics iff one of the members does whose predecessors all answered `true`; C36_new: the constructors panic exactly on an empty list of members"
  },
  {
   "property": "C37",
   "status": "proved",
   "theorems": [
    "Verif.Props.C37_bounding",
    "Verif.Props.C37_genetic",
    "Verif.Props.C37_swarm"
   ],
   "note": "C37_bounding: a `CompositeAny` with `MaxIterations(n)` among its members answers `true` from iteration `n` on; C37_genetic: (genetic): with such a stop checker a `find_min` that returns has done at most `n` generations; C37_swarm: (swarm)"
  },
  {
   "property": "C38",
   "status": "proved",
   "theorems": [
    "Verif.Props.C38_meaning",
    "Verif.Props.C38_preorder",
    "Verif.Props.C38_finite",
    "Verif.Props.C38_nonfinite"
   ],
   "note": "C38_meaning: the order is \"at least as good\": a finite value beats a larger finite one and everything that is not finite; C38_preorder: a total preorder; C38_finite: on finite values it is the numerical order, and `-0` equals `+0`; C38_nonfinite: everything that is not finite is equivalent and worse than every finite value"
  },
  {
   "property": "C39",
   "status": "proved",
   "theorems": [
    "Verif.Props.Swarm.C39_shown",
    "Verif.Props.Swarm.C39_state",
    "Verif.Props.Swarm.C39_monotone",
    "Verif.Props.Swarm.C39_minimum"
   ],
   "note": "C39_shown: at every point of every history, every best solution the swarm has ever shown to a stop checker or logger, or at the end of an iteration, is the best of all points evaluated in that run before; it is missing only if nothing was evaluated; C39_state: for the state itself, with the worst solution; C39_monotone: between two moments of one run (no new initialization between them) the best solution does not disappear and does not get worse; C39_minimum: no finite goal value of this run is smaller than the best one"
  },
  {
   "property": "C40",
   "status": "proved",
   "theorems": [
    "Verif.Props.Swarm.C40_table",
    "Verif.Props.Swarm.C40_personal"
   ],
   "note": "C40_table: at every point of every history the values of the current run form a table with one row for the initial swarm and one for each iteration, one column for each particle, in evaluation order; the last row is the swarm; and the personal best and worst of each particle are extremes of its column; C40_personal: the consequence for one particle: its personal best was evaluated in this run and is at least as good as where it is now; its personal worst was evaluated and is at least as bad"
  },
  {
   "property": "C41",
   "status": "proved",
   "theorems": [
    "Verif.Props.Swarm.C41_coordinate",
    "Verif.Props.Swarm.C41_hook",
    "Verif.Props.Swarm.C41_swarm",
    "Verif.Props.Swarm.C41_returned"
   ],
   "note": "C41_coordinate: one coordinate; C41_hook: the hook panics exactly when the dimensions differ; otherwise every coordinate ends inside its interval, whatever the coordinates were, and a point inside the box is not touched; C41_swarm: at every point of every history all coordinates, personal bests and worsts, the best and worst particle are in the box, every move ended in the box, the goal was only called in the box, and so is everything shown to loggers and stop checkers; C41_returned: what `find_min` and `next_iterations` return is in the box"
  },
  {
   "property": "C42",
   "status": "proved",
   "theorems": [
    "Verif.Props.C42_constructor",
    "Verif.Props.C42_nan",
    "Verif.Props.C42_all_or_nothing",
    "Verif.Props.C42_never",
    "Verif.Props.C42_always",
    "Verif.Props.C42_total"
   ],
   "note": "C42_constructor: the constructor accepts exactly the probabilities from 0 to 1 (so not NaN) with intervals that are ordered and finite; C42_nan: a NaN probability is rejected; C42_all_or_nothing: either all coordinates stay as they are or all are replaced by values inside the intervals; C42_never: with probability 0 the particle is never moved; C42_always: with probability 1 it always is; C42_total: for every state of the random source the hook works on a point of the right dimension, and panics on any other"
  },
  {
   "property": "C43",
   "status": "proved",
   "theorems": [
    "Verif.Props.C43_component",
    "Verif.Props.C43_hook"
   ],
   "note": "C43_component: one component; C43_hook: the hook panics exactly when the lengths differ; otherwise it returns one component for each component"
  },
  {
   "property": "C44",
   "status": "proved",
   "theorems": [
    "Verif.Props.C44_exact",
    "Verif.Props.C44_total",
    "Verif.Props.C44_overflow",
    "Verif.Props.C44_direction",
    "Verif.Props.C44_speed",
    "Verif.Props.C44_shrinks",
    "Verif.Props.C44_underflow"
   ],
   "note": "C44_exact: exact arithmetic: the result is the velocity times a factor from 0 to 1 and its length is the smaller of the length and the limit; a non-zero limit keeps the direction; C44_total: floats: the hook never panics and keeps the dimension; a velocity whose computed length is not above the limit is returned unchanged (also when the length or the limit is NaN); C44_overflow: floats: a computed length that is infinite turns every component into zero or NaN; C44_direction: floats: when the computed length is finite and above the limit, the result is the vector of the same direction whose length is the limit, up to a rounding error: `L` is the true length, `n` the number of components, `u` the unit roundoff; C44_speed: floats: whenever the computed length is finite, the true length of the result is at most the limit, up to a rounding error; C44_shrinks: floats: when the computed length is finite and above the limit (which is not negative), no component becomes NaN or changes its sign, none becomes more than twice as large, and a component moves away from zero only if its product with the limit underflows; C44_underflow: the restriction on underflow is needed"
  },
  {
   "property": "C45",
   "status": "proved",
   "theorems": [
    "Verif.Props.C45_classic",
    "Verif.Props.C45_canonical",
    "Verif.Props.C45_inertia",
    "Verif.Props.C45_negative",
    "Verif.Props.C45_factors",
    "Verif.Props.C45_factors_exact",
    "Verif.Props.C45_inertia_one",
    "Verif.Props.C45_inertia_one_exact",
    "Verif.Props.C45_at_rest",
    "Verif.Props.C45_at_rest_canonical",
    "Verif.Props.C45_classic_total",
    "Verif.Props.C45_canonical_total",
    "Verif.Props.C45_inertia_total",
    "Verif.Props.C45_negative_total",
    "Verif.Props.C45_negative_current"
   ],
   "note": "C45_classic: ClassicVelocityCalculator; C45_canonical: CanonicalVelocityCalculator; C45_inertia: InertiaVelocityCalculator: the weight is asked for once, with the number of the iteration, before the draws; C45_negative: NegativeReinforcement: six fresh draws for each component; the best and worst of the swarm as it is now come from the particles; C45_factors: the random factors are numbers from 0 to 1, also after conversion to the number type; C45_factors_exact: the same in exact arithmetic; C45_inertia_one: with ConstInertia(1) the inertia calculator does exactly what the classic one does, for floats (bit by bit, NaN and infinities included) and in exact arithmetic; C45_inertia_one_exact: in exact arithmetic, too, inertia 1 gives the classic formula; C45_at_rest: a particle at its personal best, which is also the global best, keeps its velocity (as `==` sees it: only `-0.0` may become `0.0`), whatever the draws, for finite coefficients and coordinates; C45_at_rest_canonical: the canonical calculator multiplies the velocity of such a particle by xi; C45_classic_total: ClassicVelocityCalculator does not panic when the swarm has a best particle and the vectors have one length; C45_canonical_total: the same for CanonicalVelocityCalculator; C45_inertia_total: the same for InertiaVelocityCalculator, if asking for the weight does not panic; C45_negative_total: the same for NegativeReinforcement; C45_negative_current: what NegativeReinforcement takes for the current best and worst"
  },
  {
   "property": "C46",
   "status": "proved",
   "theorems": [
    "Verif.Props.C46_exact",
    "Verif.Props.C46_never_increases",
    "Verif.Props.C46_start",
    "Verif.Props.C46_at_most_max",
    "Verif.Props.C46_usize",
    "Verif.Props.C46_undershoots",
    "Verif.Props.C46_zero_limit"
   ],
   "note": "C46_exact: in exact arithmetic: from `wMax` at the start down to `wMin` at `tMax`, between the two up to there, strictly falling, below `wMin` afterwards; C46_never_increases: with rounding and overflow: the weight is `wMax` at the start and it never increases with the number of the iteration; so it never exceeds `wMax`, and it is never NaN; C46_start: the first weight is `w_max`; C46_at_most_max: no weight is above `w_max`; C46_usize: All iteration numbers and limits of `usize` are covered for `f32` and `f64`; C46_undershoots: the lower end is only kept in exact arithmetic: with `f64` weights 0.1 and 0.4 the weight at iteration `t_max = 1` is below 0.1, and with weights 0 and 0.1 it is negative at `t_max = 3`; C46_zero_limit: `t_max = 0` gives NaN at iteration 0 and minus infinity at every later one (if the weights differ)"
  },
  {
   "property": "C47",
   "status": "proved",
   "theorems": [
    "Verif.Props.C47_accepts",
    "Verif.Props.C47_factor",
    "Verif.Props.C47_exact"
   ],
   "note": "C47_accepts: the constructor accepts exactly the parameters whose (computed) sum is above 4 and whose alpha is strictly between 0 and 1 (NaN parameters are rejected), and otherwise fails an assertion; C47_factor: the constriction factor of a constructed calculator is between 0 and alpha, so below 1, rounding and overflow of the sum of the coefficients included; C47_exact: in exact arithmetic: the factor is the documented `2 alpha / (phi_p + phi_g - 2)`, strictly between 0 and alpha"
  },
  {
   "property": "C48",
   "status": "proved",
   "theorems": [
    "Verif.Props.Swarm.C48_no_panic",
    "Verif.Props.Swarm.C48_shape",
    "Verif.Props.Swarm.C48_returns",
    "Verif.Props.Swarm.C48_library",
    "Verif.Props.Swarm.C48_library_no_panic"
   ],
   "note": "C48_no_panic: with components that fit `n` particles with `d` dimensions, every history from a fresh optimizer either reaches the point with a swarm of the right shape or is cut by the bound on the number of turns: nothing panics; C48_shape: the number of particles and the dimensions never change, at every point of every history; C48_returns: with a stop checker that stops at iteration `m` at the latest, `find_min` returns; C48_library: the library's components fit, so `C48_no_panic`, `C48_shape` and `C48_returns` apply to every optimizer put together from them; C48_library_no_panic: histories of an optimizer put together from the library"
  },
  {
   "property": "C49",
   "status": "proved",
   "theorems": [
    "Verif.Props.Swarm.C49_empty",
    "Verif.Props.Swarm.C49_mismatch",
    "Verif.Props.SwarmCaught.C49_mismatch_effects"
   ],
   "note": "C49_empty: if the initializers return no vectors, `find_min` returns `None` and never calls the goal, whatever the other components and the number of iterations; C49_mismatch: if the initializers return different numbers of vectors, `find_min` panics (assertion), and nothing but the initializers was called before: the outcome does not depend on the goal, the hooks, the loggers, the stop checker or the velocity calculator; C49_mismatch_effects: with initializers that return different numbers of vectors `find_min` panics, and what it leaves behind shows that nothing else happened: no hook and no goal function was called, and the swarm is untouched"
  },
  {
   "property": "C50",
   "status": "proved",
   "theorems": [
    "Verif.Props.C50_genetic_total",
    "Verif.Props.C50_swarm_total",
    "Verif.Props.C50_genetic",
    "Verif.Props.C50_swarm",
    "Verif.Props.C50_genetic_fresh",
    "Verif.Props.C50_swarm_fresh",
    "Verif.Props.C50_genetic_run_count",
    "Verif.Props.C50_swarm_run_count",
    "Verif.Props.C50_row_count",
    "Verif.Props.C50_last_row"
   ],
   "note": "C50_genetic_total: A `StatisticsLogger` attached to an optimizer never makes a history that begins with `find_min` panic; C50_swarm_total: attaching a StatisticsLogger to a swarm does not make it panic, nor changes what it returns; C50_genetic: (genetic), any contents: each call of a run method adds its value to the results, and the rows are those of the history; C50_swarm: (swarm), any contents; C50_genetic_fresh: (genetic): for a fresh `Statistics` the results are the values of the calls, in order, and the rows are those of the history; C50_swarm_fresh: (swarm), fresh; C50_genetic_run_count: `run_count` is the number of calls of `find_min` and `next_iterations`, not the number of rows; C50_swarm_run_count: ; C50_row_count: The rows: one for each creation of a population or swarm; C50_last_row: ... and the row of the last run holds the best solutions of all iterations since, in order"
  },
  {
   "property": "C51",
   "status": "proved",
   "theorems": [
    "Verif.Props.C51_genetic",
    "Verif.Props.C51_swarm",
    "Verif.Props.C51_genetic_private",
    "Verif.Props.C51_swarm_private",
    "Verif.Props.C51_swarm_false"
   ],
   "note": "C51_genetic: (genetic): suppose `next_iterations` returns without the logger; C51_swarm: (swarm): suppose `next_iterations` returns without the logger; C51_genetic_private: (one direction, for a logger that is already one of the components): a `StatisticsLogger` that was never started gets through a first `next_iterations` only if no iteration is done; C51_swarm_private: (swarm), the same; C51_swarm_false: the panic: the swarm optimizer, which can do iterations without `find_min`, panics in its first `next_iterations` because of the logger"
  },
  {
   "property": "C52",
   "status": "proved",
   "theorems": [
    "Verif.Props.C52_genetic",
    "Verif.Props.C52_genetic_unchanged",
    "Verif.Props.C52_swarm",
    "Verif.Props.C52_swarm_unchanged",
    "Verif.Props.C52_counters"
   ],
   "note": "C52_genetic: (genetic): with the goal wrapped, the same history returns the same values, does the same calls in the same order, leaves the same population and the same world; the last counter has gone up by the number of goal calls; C52_genetic_unchanged: (genetic), the other direction: if the history returns with the wrapped goal, it returns the same without it; C52_swarm: (swarm); C52_swarm_unchanged: (swarm), the other direction; C52_counters: What `countUp` does: the counters but the last one stay, the last one grows by `n`; if there was none, one is created by the first call"
  },
  {
   "property": "C53",
   "status": "proved",
   "theorems": [
    "Verif.Props.C53_totals",
    "Verif.Props.C53_overflow_debug",
    "Verif.Props.C53_overflow_release",
    "Verif.Props.C53_average_none",
    "Verif.Props.C53_average_exact",
    "Verif.Props.C53_average_f64",
    "Verif.Props.C53_average_overflow",
    "Verif.Props.C53_unite"
   ],
   "note": "C53_totals: after any history of a new `CallCountData` whose totals fit in a `usize`, in either build profile, `get_call_count` lists the totals of the runs in order; C53_overflow_debug: with overflow checks the counts are never wrong: a history whose totals do not fit panics; C53_overflow_release: without overflow checks each count is right modulo 2^64; C53_average_none: the average is `None` exactly for no runs; C53_average_exact: in exact arithmetic the average is the total divided by the number of runs; C53_average_f64: as a double, the average is the number nearest to the quotient as long as the total and the number of runs are at most 2^53. (`Rounds q r`: `r` is `q` units rounded to nearest; a unit is the smallest positive double.); C53_average_overflow: with overflow checks the average of counts whose total does not fit panics; C53_unite: `unite` concatenates"
  },
  {
   "property": "C54",
   "status": "proved",
   "theorems": [
    "Verif.Props.C54_none",
    "Verif.Props.C54_ignores_failures",
    "Verif.Props.C54_exact",
    "Verif.Props.C54_single"
   ],
   "note": "C54_none: the average is `None` exactly if there is no successful solution; C54_ignores_failures: failures do not matter; C54_exact: in exact arithmetic it is the mean of the goals of the successful solutions; C54_single: a single success is returned exactly (a negative zero comes back as a zero)"
  },
  {
   "property": "C55",
   "status": "proved",
   "theorems": [
    "Verif.Props.C55_none",
    "Verif.Props.C55_exact",
    "Verif.Props.C55_zero",
    "Verif.Props.C55_nonneg"
   ],
   "note": "C55_none: the deviation is `None` exactly if fewer than two solutions are successful; C55_exact: in exact arithmetic it is the square root of the unbiased sample variance; C55_zero: in exact arithmetic the deviation is zero exactly if all goals are equal; C55_nonneg: in floating point it is never negative"
  },
  {
   "property": "C56",
   "status": "proved",
   "theorems": [
    "Verif.Props.C56_no_success",
    "Verif.Props.C56_average",
    "Verif.Props.C56_average_exact",
    "Verif.Props.C56_dev",
    "Verif.Props.C56_dev_exact",
    "Verif.Props.C56_average_none",
    "Verif.Props.C56_panic",
    "Verif.Props.C56_ok"
   ],
   "note": "C56_no_success: if there is no successful solution, the average is `None`, and so is the deviation; C56_average: if all successful solutions have `d` components, so has the average; each component is the sum, from left to right, of that component of the successful solutions, divided by their number; the goal is the average goal; C56_average_exact: in exact arithmetic each component of the average is the mean of that component of the successful solutions; C56_dev: with consistent lengths, the deviation of the solutions is `None` in exactly the same cases as that of the goals; otherwise it has `d` components, each the square root of the sum of squared distances from the average, divided by the number of successes less one; C56_dev_exact: in exact arithmetic each component of the deviation is the sample deviation of that component; C56_average_none: the average is `None` exactly if the average goal is; C56_panic: both panic if two successful solutions have different lengths; C56_ok: with consistent lengths neither panics, so they panic only on solutions of different lengths"
  },
  {
   "property": "C57",
   "status": "proved",
   "theorems": [
    "Verif.Props.C57_min",
    "Verif.Props.C57_entries",
    "Verif.Props.C57_exact",
    "Verif.Props.C57_docs_wrong"
   ],
   "note": "C57_min: `get_min_iterations` is the length of the shortest run, 0 if there are none; C57_entries: there is one entry for each iteration up to the shortest run, and entry `i` is the average goal (as in C54) of what the runs have at iteration `i`; the function cannot panic; C57_exact: in exact arithmetic each entry is the mean over the runs that have a solution there, and `None` exactly if no run has one; C57_docs_wrong: the documentation (\"`None` if Solution is None for any running\") is wrong: one of two runs has no solution, and the entry is not `None`"
  },
  {
   "property": "C58",
   "status": "proved",
   "theorems": [
    "Verif.Props.C58_none",
    "Verif.Props.C58_exact",
    "Verif.Props.C58_range",
    "Verif.Props.C58_extremes"
   ],
   "note": "C58_none: the rate is `None` exactly for no runs; C58_exact: in exact arithmetic the rate is the number of accepted runs over the number of all runs; C58_range: in floating point, too, the rate lies between 0 and 1. (A vector has fewer than 2^64 elements.); C58_extremes: the rate is 0 exactly if no run is accepted, and (up to 2^53 runs) it is 1 exactly if all are"
  },
  {
   "property": "C59",
   "status": "proved",
   "theorems": [
    "Verif.Props.C59_goal",
    "Verif.Props.C59_goal_sound",
    "Verif.Props.C59_goal_complete",
    "Verif.Props.C59_goal_exact",
    "Verif.Props.C59_goal_nan",
    "Verif.Props.C59_vec_new",
    "Verif.Props.C59_vec_exact",
    "Verif.Props.C59_vec",
    "Verif.Props.C59_vec_reject",
    "Verif.Props.C59_vec_far",
    "Verif.Props.C59_vec_holes"
   ],
   "note": "C59_goal: the goal predicate accepts exactly if both goals are finite and their distance, rounded, is less than delta (all in the units of `toInt`); C59_goal_sound: an accepted goal really is closer than delta, without rounding; C59_goal_complete: a goal that is at most as far as some float below delta is accepted; C59_goal_exact: in exact arithmetic the goal predicate is `|goal - expected| < delta`; C59_goal_nan: NaN is never accepted; C59_vec_new: the constructor of the vector predicate panics exactly if the lists have different lengths; C59_vec_exact: in exact arithmetic the vector predicate accepts exactly if no coordinate that both vectors have is farther than delta from the expected one; C59_vec: in floating point the vector predicate accepts exactly if there is no coordinate whose rounded distance exceeds delta; C59_vec_reject: a rejected vector of finite numbers really has a coordinate farther than delta from the expected one; C59_vec_far: a vector with a coordinate whose distance exceeds some float above delta is rejected; C59_vec_holes: the vector predicate accepts a NaN coordinate, and a vector that is too short or too long"
  },
  {
   "property": "C60",
   "status": "proved",
   "theorems": [
    "Verif.Props.C60_concat",
    "Verif.Props.C60_monoid",
    "Verif.Props.C60_monoid_calls",
    "Verif.Props.C60_perm",
    "Verif.Props.C60_counts",
    "Verif.Props.C60_calls",
    "Verif.Props.C60_goal_exact",
    "Verif.Props.C60_solution_exact",
    "Verif.Props.C60_convergence_exact",
    "Verif.Props.C60_rounding_order"
   ],
   "note": "C60_concat: `unite` puts the runs of the other statistics after its own; C60_monoid: `unite` is associative and fresh statistics are its unit; C60_monoid_calls: the same for `CallCountData`; C60_perm: merging the same parts in another order gives the same runs, in another order; none is lost, none is doubled; C60_counts: merging in another order gives the same run count and the same success rate, rounding included; C60_calls: merging call counts in another order gives the same counts in another order, the same total and the same average call count (rounding and overflow included); C60_goal_exact: in exact arithmetic the order of the results does not matter to the average and the deviation of the goal; C60_solution_exact: the same for solutions, including whether the computation panics; C60_convergence_exact: the same for the average convergence; C60_rounding_order: with rounding, the order does matter to the average goal"
  },
  {
   "property": "C61",
   "status": "proved",
   "theorems": [
    "Verif.Props.C61_nonneg",
    "Verif.Props.C61_nan",
    "Verif.Props.C61_zero_at",
    "Verif.Props.C61_exact",
    "Verif.Props.C61_min",
    "Verif.Props.C61_error"
   ],
   "note": "C61_nonneg: the paraboloid is never negative, rounding included: it is NaN or at least zero; C61_nan: a component that is not a number, and nothing else, makes the result not a number (for as many components as a computer can hold); C61_zero_at: at (1, 2, ..., n) the result is exactly zero (as long as these numbers exist in the format); C61_exact: in exact arithmetic the paraboloid is the sum of squares of its documentation; C61_min: in exact arithmetic it is never negative and it is zero exactly at (1, 2, ..., n); C61_error: a finite value of the paraboloid is the exact sum of squares up to a relative error that grows with the number of components (and a multiple of the smallest number)"
  },
  {
   "property": "C62",
   "status": "proved",
   "theorems": [
    "Verif.Props.C62_error",
    "Verif.Props.C62_empty",
    "Verif.Props.C62_single",
    "Verif.Props.C62_nonneg",
    "Verif.Props.C62_zero_at",
    "Verif.Props.C62_exact",
    "Verif.Props.C62_min"
   ],
   "note": "C62_error: a finite value of the Rosenbrock function differs from the exact value `E` at the point by at most `5/2 (n + 1) u E + 5/2 * 100 Σ g (|x' - x^2| + g) + 120 n t`, where `x` and `x'` are neighbours among the `n` coordinates, `g = u x^2 + t` bounds the rounding error of `x^2`, `u` is the unit roundoff and `t` half the smallest positive number; C62_empty: the empty vector panics, in both build profiles; C62_single: a one-element vector gives zero; C62_nonneg: rosenbrock of a non-empty vector returns, and it is never negative, rounding included; C62_zero_at: it is exactly zero at (1, ..., 1), for `f32` and `f64`; C62_exact: in exact arithmetic rosenbrock is the sum of its documentation; C62_min: in exact arithmetic it is never negative, and with at least two components it is zero exactly at (1, ..., 1)"
  },
  {
   "property": "C63",
   "status": "proved",
   "theorems": [
    "Verif.Props.C63_exact",
    "Verif.Props.C63_min",
    "Verif.Props.C63_error",
    "Verif.Props.C63_error_min",
    "Verif.Props.C63_zero_at"
   ],
   "note": "C63_exact: in exact arithmetic (and with whatever the program takes for π) rastrigin is a sum of `x² + 10 (1 - cos (2 π x))`; C63_min: in exact arithmetic rastrigin is never negative and it is zero exactly at the origin; C63_error: a finite value of the Rastrigin function differs from the exact sum of `x^2 + 10 (1 - cos (2 P x))` at the point, with `P` the constant the program takes for π, by at most `9/4 (n + 2) u Σ (x^2 + 10) + 23/2 Σ (ε + 14 u |x| + t) + 5/2 (n + 1) t`, where the platform's cosine is off by at most `ε`, `u` is the unit roundoff and `t` half the smallest positive number; C63_error_min: so the computed value is never below zero by more than that; C63_zero_at: at the origin the computed value is exactly zero, if the platform's cosine of a zero is 1 (as IEEE recommends) and there are at most `2 ^ 20` coordinates"
  },
  {
   "property": "C64",
   "status": "proved",
   "theorems": [
    "Verif.Props.C64_exact",
    "Verif.Props.C64_nonneg",
    "Verif.Props.C64_at_min",
    "Verif.Props.C64_unbounded",
    "Verif.Props.C64_error",
    "Verif.Props.C64_error_min",
    "Verif.Props.C64_doc"
   ],
   "note": "C64_exact: in exact arithmetic schwefel is a sum of `418.9829 - x sin √|x|`; C64_nonneg: on [-500, 500]^n schwefel is not negative; C64_at_min: at the documented point schwefel is within 1.3e-5 n of zero; C64_unbounded: outside the box schwefel is unbounded below, already in one dimension; C64_error: a finite value of the Schwefel function differs from the exact sum of `418.9829 - x sin √|x|` at the point by at most `6/5 (n + 3) u (419 n + Σ|x|) + 11/10 Σ |x| (ε + u √|x| + t) + 11/10 (n + 1) t`, where the platform's sine is off by at most `ε`, `u` is the unit roundoff and `t` half the smallest positive number; C64_error_min: so in the box [-500, 500]^n the computed value is never below zero by more than that; C64_doc: the assertion of the documentation's example, `schwefel(&vec![420.9687; 4]).abs() < 1e-4` in f64, holds with every sine that keeps its range and is accurate to eight digits"
  },
  {
   "property": "C65",
   "status": "proved",
   "theorems": [
    "Verif.Props.C65_verbose_genetic",
    "Verif.Props.C65_verbose_swarm",
    "Verif.Props.C65_one_line",
    "Verif.Props.C65_resultOnly_genetic",
    "Verif.Props.C65_resultOnly_swarm",
    "Verif.Props.C65_time_genetic",
    "Verif.Props.C65_time_swarm",
    "Verif.Props.C65_time_total"
   ],
   "note": "C65_verbose_genetic: `VerboseLogger` writes one text per completed iteration that has a best solution, in order, and nothing else; C65_verbose_swarm: VerboseLogger on a swarm writes one text for each iteration with a best solution; C65_one_line: The text of an iteration is one line if the numbers contain no line break; C65_resultOnly_genetic: `ResultOnlyLogger` writes at the end of each run the solution that is returned, or that there is none, and the number of iterations, and nothing else; C65_resultOnly_swarm: ResultOnlyLogger on a swarm writes the result of each finished run; C65_time_genetic: `TimeLogger` reads the clock twice in each run and writes at its end the difference; C65_time_swarm: TimeLogger on a swarm writes one time for each finished run: the difference of its two looks at the clock; C65_time_total: a `TimeLogger` never fails in an optimizer, whatever call comes first (with `C70_genetic_any`, `C70_swarm_any`: it does not change the outcome of any history)"
  },
  {
   "property": "C66",
   "status": "proved",
   "theorems": [
    "Verif.Props.C66_genes",
    "Verif.Props.C66_no_assertion"
   ],
   "note": "C66_genes: at every point of every history all individuals have `n` genes, and only points with `n` genes have been passed to the goal or shown; C66_no_assertion: with library components for `n` genes no assertion fails in the next generation, at any point of any history"
  },
  {
   "property": "C67",
   "status": "proved",
   "theorems": [
    "Verif.Props.C67_number",
    "Verif.Props.Swarm.C67_swarm"
   ],
   "note": "C67_number: at every point of every history the iteration number is the number of generations completed since the last `find_min` created its population; this is also what stop checkers and loggers were shown at all earlier times; C67_swarm: (swarm): at every point of every history the iteration number is the number of iterations completed since the last `find_min` created its swarm; this is also what stop checkers and loggers were shown at all earlier times"
  },
  {
   "property": "C68",
   "status": "proved",
   "theorems": [
    "Verif.Props.C68_genetic",
    "Verif.Props.C68_genetic_new",
    "Verif.Props.Swarm.C68_swarm"
   ],
   "note": "C68_genetic: (genetic): a setter only replaces its component; C68_genetic_new: (genetic): right after `new`, setting the components gives the optimizer built with them; C68_swarm: (swarm): a setter only replaces its component"
  },
  {
   "property": "C69",
   "status": "proved",
   "theorems": [
    "Verif.Props.Swarm.C69_pipeline",
    "Verif.Props.Swarm.C69_each"
   ],
   "note": "C69_pipeline: at any point of any history, the next turn of the loop moves the particles one after the other, each exactly once and in order, as `Spec.Swarm.Move` says, and then updates the best and worst ever seen; C69_each: every particle is replaced by exactly one particle, moved from where it was"
  },
  {
   "property": "C70",
   "status": "proved",
   "theorems": [
    "Verif.Props.C70_genetic",
    "Verif.Props.C70_genetic_any",
    "Verif.Props.C70_swarm",
    "Verif.Props.C70_swarm_any",
    "Verif.Props.C70_statistics",
    "Verif.Props.C70_verbose",
    "Verif.Props.C70_resultOnly",
    "Verif.Props.C70_time"
   ],
   "note": "C70_genetic: (genetic): a logger that does not fail, attached at any position, changes nothing but its own fields; C70_genetic_any: (genetic), any history, for a logger that is in a state in which it could be after a run; C70_swarm: (swarm); C70_swarm_any: (swarm), any history, for a logger that is in a state in which it could be after a run; C70_statistics: `StatisticsLogger` never fails once `find_min` has been called; C70_verbose: `VerboseLogger` and `ResultOnlyLogger` never fail if writing does not; C70_resultOnly: ResultOnlyLogger does not fail if the output does not; C70_time: `TimeLogger` never fails if writing and reading the clock do not, whatever its field is before a run"
  },
  {
   "property": "C71",
   "status": "proved",
   "theorems": [
    "Verif.Props.C71_paraboloid_program",
    "Verif.Props.C71_schwefel_program",
    "Verif.Props.C71_rastrigin_program",
    "Verif.Props.C71_schwefel_iterative_program",
    "Verif.Props.C71_unbounded",
    "Verif.Props.C71_rosenbrock_program",
    "Verif.Props.C71_dies_out_witness",
    "Verif.Props.C71_none_witness",
    "Verif.Props.C71_before_witness",
    "Verif.Props.C71_lasting",
    "Verif.Props.C71_no_panic",
    "Verif.Props.C71_find_min"
   ],
   "note": "C71_paraboloid_program: genetic-paraboloid.rs, on any platform with any random numbers, ends with a point of `[-100, 100] ^ 5` and its finite goal value, after 1 to 3000 generations; C71_schwefel_program: genetic-schwefel.rs; C71_rastrigin_program: genetic-rastrigin.rs; C71_schwefel_iterative_program: genetic-schwefel-iterative.rs (without its TimeLogger) returns twice: after exactly 100 generations, and after 400 more from there; C71_unbounded: without a bound on the generations a program either ends well or goes on for ever; it never panics; C71_rosenbrock_program: genetic-rosenbrock.rs has no bound on its generations; C71_dies_out_witness: without a finite goal value the population dies out in the first generation and the second one panics; C71_none_witness: a stop checker that answers `true` before the first generation makes `find_min` return nothing; C71_before_witness: `next_iterations` before any `find_min` panics; C71_lasting: a population of such an optimizer lasts; C71_no_panic: no history of such an optimizer panics at any point, if `next_iterations` is not called before `find_min` (`fuel` is the bound on the number of turns, not a panic); C71_find_min: `find_min` of such an optimizer returns, if its stop checker answers `true` from iteration `m` on but not before the first generation: after at most `m` generations, with a point in the intervals and its finite goal value"
  },
  {
   "property": "C72",
   "status": "proved",
   "theorems": [
    "Verif.Props.C72_rosenbrock_square",
    "Verif.Props.C72_paraboloid",
    "Verif.Props.C72_schwefel",
    "Verif.Props.C72_rastrigin",
    "Verif.Props.C72_rosenbrock",
    "Verif.Props.C72_overflow_witness"
   ],
   "note": "C72_rosenbrock_square: on `[-2, 2] ^ n` the Rosenbrock function is at most 3609 for each pair of neighbours, as the exact function is, in spite of all roundings; C72_paraboloid: the paraboloid of a moderate point is finite (and not above `2 ^ 62`); C72_schwefel: the Schwefel function of a moderate point is finite, with any sine that keeps its range; C72_rastrigin: the Rastrigin function of a moderate point is finite, with any cosine that keeps its range; C72_rosenbrock: the Rosenbrock function of a moderate point with at least one coordinate returns a finite value; C72_overflow_witness: some bound on the coordinates is needed"
  },
  {
   "property": "C73",
   "status": "proved",
   "theorems": [
    "Verif.Props.C73_genetic",
    "Verif.Props.C73_genetic_bounded",
    "Verif.Props.C73_genetic_witness",
    "Verif.Props.C73_alone",
    "Verif.Props.C73_any",
    "Verif.Props.C73_swarm",
    "Verif.Props.C73_swarm_resumed",
    "Verif.Props.C73_swarm_bounded",
    "Verif.Props.C73_empty_witness",
    "Verif.Props.C73_negative_witness"
   ],
   "note": "C73_genetic: with a `GoalNotChange(m, d)` whose `d` is not negative, a genetic optimizer whose selections keep the best individual, whose creator creates somebody and whose goal is finite on the points in question (those in `B`, which creation, crossing, mutation and pre-birth do not leave) ends by itself; C73_genetic_bounded: if moreover the goal values are between `lo` and `hi` and `d` is positive, a run with a new `GoalNotChange(m, d)` takes at most `(⌊(hi - lo) / d⌋ + 2) * (m + 1) + 1` generations; C73_genetic_witness: with LimitPopulation, which does not always keep the best, GoalNotChange may never stop: the best of this optimizer is 1, 2, 1, 2, ... for ever; C73_alone: an object that is the stop checker itself is asked for its consent; C73_any: so is a member of a `CompositeAny`, at any place, if the other members do not touch its fields; C73_swarm: with a `GoalNotChange(m, d)` whose `d` is not negative, a swarm with at least one particle ends by itself, whatever the goal function returns (also infinities and NaN): from some bound on the outcome does not depend on the bound on the number of turns, and the run has returned or panicked; C73_swarm_resumed: so does a resumed run (`next_iterations`) of a swarm that has a best particle; C73_swarm_bounded: if the goal values (of the points the hooks let pass) are between `lo` and `hi` and `d` is positive, a run with a new `GoalNotChange(m, d)` takes at most `(⌊(hi - lo) / d⌋ + 2) * (m + 1)` iterations; C73_empty_witness: fails without particles: there is no best value to compare, and the run never ends; C73_negative_witness: fails for a negative `d`: the run of a constant goal never ends"
  },
  {
   "property": "C74",
   "status": "proved",
   "theorems": [
    "Verif.Props.C74_swarm",
    "Verif.Props.C74_genetic",
    "Verif.Props.C74_swarm_any",
    "Verif.Props.C74_genetic_any",
    "Verif.Props.C74_second_witness"
   ],
   "note": "C74_swarm: (swarm): a run, resumed any number of times, of an optimizer whose stop checker contains one newly created `GoalNotChange`, alone or inside composite checkers: the results, the panics, the swarm, every call of a component and all random numbers are the same with and without overflow checks; C74_genetic: (genetic); C74_swarm_any: (swarm), any history of calls and any `GoalNotChange` objects, used or not: what the build with overflow checks does is what the build without them does, unless it panics because of an overflow; C74_genetic_any: (genetic), any history of calls and any `GoalNotChange` objects; C74_second_witness: the condition is needed: a second `find_min` with the same object differs (see C35)"
  },
  {
   "property": "C75",
   "status": "proved",
   "theorems": [
    "Verif.Props.Swarm.C75_paraboloid_program",
    "Verif.Props.Swarm.C75_rastrigin_program",
    "Verif.Props.Swarm.C75_rosenbrock_program",
    "Verif.Props.Swarm.C75_schwefel_program",
    "Verif.Props.Swarm.C75_schwefel_iterative_program",
    "Verif.Props.Swarm.C75_empty_witness",
    "Verif.Props.Swarm.C75_find_min",
    "Verif.Props.Swarm.C75_next_iterations",
    "Verif.Props.Swarm.C75_checked",
    "Verif.Props.Swarm.C75_stagnating"
   ],
   "note": "C75_paraboloid_program: particleswarm-paraboloid.rs, on any platform with any random numbers, with or without overflow checks, ends after at most 3000 iterations with the best of the points it has evaluated, all of them in `[-100, 100] ^ 5` and 80 per iteration; C75_rastrigin_program: particleswarm-rastrigin.rs; C75_rosenbrock_program: particleswarm-rosenbrock.rs; C75_schwefel_program: particleswarm-schwefel.rs; C75_schwefel_iterative_program: particleswarm-schwefel-iterative.rs (without its TimeLogger) returns twice: after exactly 50 iterations with the best of its 5100 evaluations, and after 100 more iterations with the best of all 15100; C75_empty_witness: somebody must be there; C75_find_min: a swarm of `n` particles, put together from the library, with MoveToBoundary as its last hook, a goal that is finite on the intervals and a stop checker that stops at iteration `m` at the latest: `find_min` returns the best of the points it has evaluated, all of them in the intervals, after at most `m` iterations; C75_next_iterations: the same for `next_iterations` after any history with a `find_min` in it; C75_checked: The stop checker with one new GoalNotChange: also with overflow checks; C75_stagnating: a swarm put together from the library, with MoveToBoundary as its last hook, whose stop checker stops if a new `GoalNotChange(mi, de)` says so, returns by itself if `de` is positive and the goal is between `a` and `b` on the intervals: it needs no MaxIterations"
  },
  {
   "property": "C76",
   "status": "proved",
   "theorems": [
    "Verif.Props.Workers.C76_merged",
    "Verif.Props.Workers.C76_unwrap",
    "Verif.Props.Workers.C76_bounded",
    "Verif.Props.Workers.C76_ends",
    "Verif.Props.Workers.C76_hangs",
    "Verif.Props.Workers.C76_any_order",
    "Verif.Props.Workers.C76_hangs_witness"
   ],
   "note": "C76_merged: whatever the scheduler does, when the main thread has received everything, its data are those of all threads, merged in some order of the threads; each thread has done all its runs as if it were alone; C76_unwrap: neither `recv().unwrap()` nor `send().unwrap()` panics: the main thread does not, and a thread that is dead has had a panic in a run; C76_bounded: no execution has more than this number of steps; C76_ends: if each run ends and none panics, the program cannot get stuck before the main thread has received everything, and gets there after exactly this number of steps; C76_hangs: if a run has panicked, the main thread never gets to the end and does not panic either: when nothing can happen any more, it still waits for data, with an empty channel; C76_any_order: the order is up to the scheduler: each order of the threads is that of some execution; C76_hangs_witness: such a panic happens, and the program hangs"
  },
  {
   "property": "C77",
   "status": "proved",
   "theorems": [
    "Verif.Props.C77_genetic_schwefel",
    "Verif.Props.C77_genetic_rosenbrock",
    "Verif.Props.Swarm.C77_swarm_schwefel",
    "Verif.Props.Swarm.C77_swarm_schwefel_full",
    "Verif.Props.Swarm.C77_swarm_schwefel_inertia",
    "Verif.Props.Swarm.C77_swarm_rastrigin_inertia",
    "Verif.Props.Swarm.C77_swarm_rosenbrock"
   ],
   "note": "C77_genetic_schwefel: genetic-schwefel-statistics.rs; its row has exactly 3000 entries; C77_genetic_rosenbrock: genetic-rosenbrock-statistics.rs has no bound on its generations, so a run may go on for ever; C77_swarm_schwefel: a run of particleswarm-schwefel-statistics.rs, on any platform with any random numbers, with or without overflow checks, ends and leaves a faithful record; C77_swarm_schwefel_full: particleswarm-schwefel-statistics-full.rs; C77_swarm_schwefel_inertia: particleswarm-schwefel-statistics-inertia.rs; C77_swarm_rastrigin_inertia: particleswarm-rastrigin-statistics-inertia.rs; C77_swarm_rosenbrock: particleswarm-rosenbrock-statistics.rs"
  },
  {
   "property": "C78",
   "status": "proved",
   "theorems": [
    "Verif.Props.C78_swarm_schwefel",
    "Verif.Props.C78_swarm_schwefel_full",
    "Verif.Props.C78_swarm_schwefel_inertia",
    "Verif.Props.C78_swarm_rastrigin_inertia",
    "Verif.Props.C78_swarm_rosenbrock",
    "Verif.Props.C78_genetic_schwefel",
    "Verif.Props.C78_genetic_rosenbrock",
    "Verif.Props.C78_too_many_processors"
   ],
   "note": "C78_swarm_schwefel: particleswarm-schwefel-statistics.rs; C78_swarm_schwefel_full: particleswarm-schwefel-statistics-full.rs; C78_swarm_schwefel_inertia: particleswarm-schwefel-statistics-inertia.rs; C78_swarm_rastrigin_inertia: particleswarm-rastrigin-statistics-inertia.rs; C78_swarm_rosenbrock: particleswarm-rosenbrock-statistics.rs; C78_genetic_schwefel: genetic-schwefel-statistics.rs; C78_genetic_rosenbrock: genetic-rosenbrock-statistics.rs, if each run ends within `m` generations; C78_too_many_processors: with more processors than runs in all there is no run, and `unwrap` of the success rate panics"
  },
  {
   "property": "C79",
   "status": "proved",
   "theorems": [
    "Verif.Props.C79_mean",
    "Verif.Props.C79_small",
    "Verif.Props.C79_too_few",
    "Verif.Props.C79_overflow_checked",
    "Verif.Props.C79_too_many",
    "Verif.Props.C79_overflow_unchecked",
    "Verif.Props.C79_outside_witness"
   ],
   "note": "C79_mean: two or more integer parents, as many as the type can count, that can be added without overflow have exactly one child: their mean without its fractional part, which lies between the least and the greatest parent; C79_small: so it is for genes so small that even as many times each of them as there are parents is in the range; C79_too_few: fewer than two parents: panic; C79_overflow_checked: with overflow checks, parents whose sum leaves the range on the way make it panic; C79_too_many: more parents than the type can count: panic, in every build; C79_overflow_unchecked: without overflow checks nothing is lost but whole multiples of `2 ^ width`: the child is the quotient of the wrapped sum; C79_outside_witness: such a child can lie far from its parents: -28 from 100 and 100 as `i8`"
  },
  {
   "property": "C80",
   "status": "proved",
   "theorems": [
    "Verif.Props.C80_constructor",
    "Verif.Props.C80_create",
    "Verif.Props.C80_create_vec",
    "Verif.Props.C80_swarm_initializers",
    "Verif.Props.C80_swarm_initializers_panic",
    "Verif.Props.C80_zero_velocity",
    "Verif.Props.C80_narrow_types",
    "Verif.Props.C80_large",
    "Verif.Props.C80_outside_witness",
    "Verif.Props.C80_panic_witness"
   ],
   "note": "C80_constructor: the constructor succeeds exactly on a positive size and a non-empty list of increasing intervals; C80_create: on increasing intervals of values of the type not beyond `2 ^ 53`, `create` returns, for every random source, exactly `population_size` chromosomes with one gene per interval, each inside its interval; C80_create_vec: `RandomVectorCreator::create_vec` alike; C80_swarm_initializers: the initializers of the swarm return, without panic, as many vectors as asked for, each in the intervals; C80_swarm_initializers_panic: an interval that does not increase is a panic of the initializers, unless there are no particles; C80_zero_velocity: the zero velocities are `count` vectors of `dimension` zeros; C80_narrow_types: for the types with at most 53 bits all intervals of values of the type are good; C80_large: with larger bounds a gene that is created lies between the bounds as `f64` has them; C80_outside_witness: so it may lie outside its interval: `2 ^ 53 + 4` for the interval `[0, 2 ^ 53 + 3]`; C80_panic_witness: and with `i64::MAX` as the upper bound the creator may panic, because `f64` has `2 ^ 63` for it"
  },
  {
   "property": "C81",
   "status": "proved",
   "theorems": [
    "Verif.Props.C81_lasting",
    "Verif.Props.C81_no_panic",
    "Verif.Props.C81_box",
    "Verif.Props.C81_find_min"
   ],
   "note": "C81_lasting: a population of such an optimizer lasts; C81_no_panic: no history of such an optimizer panics at any point, in either build profile, if `next_iterations` is not called before `find_min` (`fuel` is the bound on the number of turns, not a panic); C81_box: at every point of every history all individuals are inside the intervals, and only such points have been passed to the goal or shown to loggers and stop checkers; C81_find_min: `find_min` of such an optimizer returns, if its stop checker answers `true` from iteration `m` on but not before the first generation: after at most `m` generations, with a point in the intervals and its finite goal value"
  },
  {
   "property": "C82",
   "status": "proved",
   "theorems": [
    "Verif.Props.Swarm.C82_used",
    "Verif.Props.Swarm.C82_velocities",
    "Verif.Props.Swarm.C82_distance",
    "Verif.Props.Swarm.C82_initial_witness"
   ],
   "note": "C82_used: no particle is ever moved with a velocity beyond the limits, at any point of any history; C82_velocities: after each turn of the loop the velocities of all particles are within the limits; C82_distance: so in a turn without post-move hooks no particle gets farther along an axis than the limit for the axis: a finite coordinate `x` becomes a number between `x - |limit|` and `x + |limit|`, rounded, or NaN; C82_initial_witness: the initial velocities are not corrected: before the first turn a particle can have a velocity beyond the limit"
  },
  {
   "property": "C83",
   "status": "proved",
   "theorems": [
    "Verif.Props.C83_average_goal",
    "Verif.Props.C83_convergence",
    "Verif.Props.C83_average",
    "Verif.Props.C83_cross_mean",
    "Verif.Props.C83_success_rate"
   ],
   "note": "C83_average_goal: a finite average goal is the mean of the goals up to a rounding error; C83_convergence: so is every finite entry of the average convergence; C83_average: and every finite coordinate of the average point; C83_cross_mean: the CrossMean child of any number of parents is their mean, up to a rounding error; C83_success_rate: the success rate is the quotient of the accepted and all runs, up to a rounding error"
  },
  {
   "property": "C84",
   "status": "proved",
   "theorems": [
    "Verif.Props.C84_goal",
    "Verif.Props.C84_point"
   ],
   "note": "C84_goal: a finite standard deviation of the goals is the exact one up to a rounding error; C84_point: the same for each coordinate of the points"
  },
  {
   "property": "C85",
   "status": "proved",
   "theorems": [
    "Verif.Props.C85_rosenbrock_small",
    "Verif.Props.C85_rosenbrock_passes",
    "Verif.Props.C85_genetic_paraboloid",
    "Verif.Props.C85_genetic_schwefel",
    "Verif.Props.C85_genetic_rastrigin",
    "Verif.Props.Swarm.C85_swarm_paraboloid",
    "Verif.Props.C85_stat_single",
    "Verif.Props.C85_stat_two",
    "Verif.Props.C85_stat_two_witness",
    "Verif.Props.C85_genetic_rosenbrock",
    "Verif.Props.C85_rosenbrock_too_many"
   ],
   "note": "C85_rosenbrock_small: a run of genetic-rosenbrock.rs that ends with a goal value of at most 1e-6 (the threshold of its stop checker) counts as a success; C85_rosenbrock_passes: the test passes if at least three quarters of the runs have ended with a goal value of at most 1e-6; C85_genetic_paraboloid: `genetic_paraboloid` in tests/genetic-paraboloid.rs, on any platform with any random numbers, with or without overflow checks; C85_genetic_schwefel: `genetic_schwefel` in tests/genetic-schwefel.rs; C85_genetic_rastrigin: `genetic_rastrigin` in tests/genetic-rastrigin.rs; C85_swarm_paraboloid: `test_particleswarm_paraboloid` in tests/particleswarm-paraboloid.rs; C85_stat_single: `genetic_paraboloid_single` in tests/genetic-stat-paraboloid.rs passes on any platform with any random numbers, with or without overflow checks; C85_stat_two: `genetic_paraboloid_two` in the same file, with any number of runs: without overflow checks it passes; with them it passes or panics because of an overflow in GoalNotChange, which keeps its iteration number from the run before (see C35); C85_stat_two_witness: the panic happens; C85_genetic_rosenbrock: `genetic_rosenbrock` in tests/genetic-rosenbrock.rs, if each run ends within `m` generations: it passes exactly if at least three quarters of the runs have ended near the minimum; C85_rosenbrock_too_many: on a machine with more than 100 processors no run is made and the test always fails"
  },
  {
   "property": "C86",
   "status": "proved",
   "theorems": [
    "Verif.Props.Swarm.C86_used",
    "Verif.Props.Swarm.C86_velocities",
    "Verif.Props.Swarm.C86_distance",
    "Verif.Props.Swarm.C86_reach",
    "Verif.Props.Swarm.C86_initial_witness"
   ],
   "note": "C86_used: no particle is ever moved with a velocity longer than the limit, up to rounding, at any point of any history; C86_velocities: after each turn of the loop the velocities of all particles are within the limit; C86_distance: so a turn without post-move hooks that leaves a particle at finite coordinates has moved it by at most twice the limit, and by at most the limit plus the rounding error of the addition; C86_reach: in `k` turns of the loop without post-move hooks a particle that ends at finite coordinates goes no farther than `k` times twice the limit; C86_initial_witness: the initial velocities are not corrected: before the first turn a particle can have a velocity beyond the limit"
  },
  {
   "property": "C87",
   "status": "proved",
   "theorems": [
    "Verif.Props.C87_call",
    "Verif.Props.C87_history",
    "Verif.Props.C87_every",
    "Verif.Props.C87_evaluated",
    "Verif.Props.C87_returned",
    "Verif.Props.C87_box",
    "Verif.Props.C87_left",
    "Verif.Props.C87_left_find_min",
    "Verif.Props.C87_count",
    "Verif.Props.C87_restart",
    "Verif.Props.C87_creator",
    "Verif.Props.C87_library",
    "Verif.Props.C87_check",
    "Verif.Props.C87_extremes",
    "Verif.Props.C87_dead_parents_witness",
    "Verif.Props.C87_interval_witness"
   ],
   "note": "C87_call: one call of the optimizer does exactly what it does in the model without caught panics: if it returns, with the same result in the same state, and if it panics, with the same panic; C87_history: a history without a panic is a history of the model without caught panics; up to the first panic, too; C87_every: Every optimizer of the other theorems is one of these; C87_evaluated: after any history, whatever panicked in it, every individual, the best and the worst carry the value that the goal returned for their point; so did everything that was ever shown to a logger or a stop checker; C87_returned: what a call returned, before or after any number of panics, was evaluated; C87_box: with `RandomCreator` and the pre-birth interval check no panic lets a point outside the intervals into the population, to the goal function, to a logger or to a stop checker, or be returned; C87_left: what `next_iterations` leaves behind, whether it returns or a component panics, wherever; C87_left_find_min: the same for `find_min`, which begins with an empty population; C87_count: with any legal selections an interrupted generation is not counted, a completed one is; C87_restart: `find_min` does not depend on what a panic (or anything else) left in the optimizer: it does what it does on a new optimizer with the same components, in the same world; C87_creator: when the creator panics, the old population is gone; C87_library: the library's selections only kill, also when they panic half-way; C87_check: without a look at what a panic leaves, the in-place selection is the one of the other theorems; C87_extremes: whatever panicked before, a completed generation with survivors reports a best and a worst that are extremal among all survivors - the children that an interrupted generation left behind included; C87_dead_parents_witness: the natural expectation that a killed individual never becomes a parent fails when the panic of a selection is caught: the kills of the interrupted generation stay, and `next_iterations` pairs the dead; C87_interval_witness: the library's own interval selection does this, too, when a chromosome of the wrong length follows a bad one: the bad one is dead, the rest has not been looked at, the panic can be caught"
  },
  {
   "property": "C88",
   "status": "proved",
   "theorems": [
    "Verif.Props.SwarmCaught.C88_call",
    "Verif.Props.SwarmCaught.C88_history",
    "Verif.Props.SwarmCaught.C88_every",
    "Verif.Props.SwarmCaught.C88_evaluated",
    "Verif.Props.SwarmCaught.C88_returned",
    "Verif.Props.SwarmCaught.C88_box",
    "Verif.Props.SwarmCaught.C88_left",
    "Verif.Props.SwarmCaught.C88_monotone",
    "Verif.Props.SwarmCaught.C88_personal",
    "Verif.Props.SwarmCaught.C88_extremes",
    "Verif.Props.SwarmCaught.C88_find_min",
    "Verif.Props.SwarmCaught.C88_restart",
    "Verif.Props.SwarmCaught.C88_lost_best_witness"
   ],
   "note": "C88_call: one call of the optimizer does exactly what it does in the model without caught panics: if it returns, with the same result in the same state, and if it panics, with the same panic; C88_history: a history without a panic is a history of the model without caught panics; up to the first panic, too; C88_every: Every optimizer of the other theorems is one of these; C88_evaluated: after any history, whatever panicked in it, every particle's position, personal best and personal worst, the best and the worst of the swarm carry the value that the goal returned for their point, and a particle's value is between its personal best and its personal worst; everything that was ever shown to a logger or a stop checker had been evaluated; C88_returned: what a call returned, before or after any number of panics, was evaluated; C88_box: with `MoveToBoundary` as the last post-move hook no panic lets a point outside the intervals into the swarm, to the goal function, to a logger or to a stop checker, or be returned; C88_left: what `next_iterations` leaves behind, whether it returns or a component panics, wherever: the positions and values, the best, the worst and the iteration number of the last completed iteration - or those at the beginning of the call, if no iteration was completed -, except that the first particles (as many as the goal function returned for since) have moved; C88_monotone: a call of `next_iterations`, whether it returns or panics, keeps the number of particles, and the best of the swarm does not get worse (nor the worst better); C88_personal: personal memories survive a panic; C88_extremes: whatever panicked before, a completed iteration reports a best that is not worse than any current particle, and a worst that is not better; C88_find_min: what `find_min` leaves behind; C88_restart: `find_min` does what it would do on any other swarm, whatever the caught panics have left behind: it returns or panics in the same way, and leaves the same behind - except that, if it panics before the new swarm is complete, the old one is still there; C88_lost_best_witness: the natural expectation that the optimizer returns the best point evaluated in the run fails when a panic is caught and the run continued"
  },
  {
   "property": "C89",
   "status": "proved",
   "theorems": [
    "Verif.Props.C89_schwefel",
    "Verif.Props.C89_rastrigin",
    "Verif.Props.C89_rosenbrock",
    "Verif.Props.C89_paraboloid",
    "Verif.Props.C89_genetic_schwefel",
    "Verif.Props.C89_genetic_rastrigin",
    "Verif.Props.C89_genetic_paraboloid",
    "Verif.Props.C89_genetic_rosenbrock",
    "Verif.Props.C89_swarm_schwefel",
    "Verif.Props.C89_swarm_rastrigin",
    "Verif.Props.C89_swarm_paraboloid",
    "Verif.Props.C89_swarm_rosenbrock"
   ],
   "note": "C89_schwefel: at every point of the box [-500, 500]^d, d at most 15, the computed value of the Schwefel function is within `d/375` of the exact one, and so not below `-d/375`; C89_rastrigin: at every point of the box [-5.12, 5.12]^d, d at most 30, the computed value of the Rastrigin function is within `d/4000` of the exact one, and so not below `-d/4000`; C89_rosenbrock: at every point of the box [-2, 2]^3 the computed value of the Rosenbrock function is within `E / 10^6 + 1/1000` of the exact value `E`; C89_paraboloid: the computed value of the paraboloid of at most 30 components, if finite, is within `3 E / 10^6 + 10^-38` of the exact value `E`; C89_genetic_schwefel: genetic-schwefel.rs; C89_genetic_rastrigin: genetic-rastrigin.rs; C89_genetic_paraboloid: genetic-paraboloid.rs; C89_genetic_rosenbrock: genetic-rosenbrock.rs, if it ends; C89_swarm_schwefel: particleswarm-schwefel.rs; C89_swarm_rastrigin: particleswarm-rastrigin.rs; C89_swarm_paraboloid: particleswarm-paraboloid.rs; C89_swarm_rosenbrock: particleswarm-rosenbrock.rs"
  },
  {
   "property": "C90",
   "status": "proved",
   "theorems": [
    "Verif.Props.Swarm.C90_swarm_shown",
    "Verif.Props.Swarm.C90_swarm_findMin",
    "Verif.Props.Swarm.C90_swarm_nextIterations",
    "Verif.Props.C90_genetic",
    "Verif.Props.C90_genetic_findMin",
    "Verif.Props.C90_genetic_nextIterations",
    "Verif.Props.C90_nan_witness"
   ],
   "note": "C90_swarm_shown: (swarm): whatever the components do, every best solution shown to a stop checker or a logger is the first, in the order of the goal calls of the run, of the best points evaluated before; C90_swarm_findMin: (swarm): what `find_min` returns, after any history; C90_swarm_nextIterations: (swarm): what `next_iterations` returns, after any history; C90_genetic: (genetic): in every generation with survivors, whatever the components do, the reported best is the first survivor, in the order of the population, that is at least as good as all others, and the reported worst is the last one that is at least as bad as all others; C90_genetic_findMin: (genetic): what `find_min` returns, after any history, if at least one generation was made and a survivor has a fitness that is not NaN; C90_genetic_nextIterations: (genetic), for `next_iterations`; C90_nan_witness: among fitnesses that are all NaN it is not the first individual that is reported"
  },
  {
   "property": "C91",
   "status": "proved",
   "theorems": [
    "Verif.Props.C91_tournament",
    "Verif.Props.C91_share",
    "Verif.Props.C91_nan",
    "Verif.Props.C91_no_rounds",
    "Verif.Props.C91_pressure",
    "Verif.Props.C91_default",
    "Verif.Props.C91_random_pairs"
   ],
   "note": "C91_tournament: tournaments; C91_share: without NaN, the share of an individual is what is left to those as good as it when all participants are not better than it but not all are worse, divided among them; C91_nan: a NaN fitness does not keep an individual from winning: its share is that of a draw by lot, whatever the number of rounds; C91_no_rounds: without rounds all individuals have the same share; C91_pressure: the better one has the greater share, if there is a round at all; C91_default: with the default of one round, an individual without equals that `k` of the `n` individuals surpass has the share `(2 (n - k) - 1) / n²`; C91_random_pairs: random pairs"
  },
  {
   "property": "C92",
   "status": "proved",
   "theorems": [
    "Verif.Props.C92_mutation",
    "Verif.Props.C92_mutation_bit",
    "Verif.Props.C92_crossing_bit"
   ],
   "note": "C92_mutation: mutation; C92_mutation_bit: mutation; C92_crossing_bit: crossing"
  },
  {
   "property": "C93",
   "status": "proved",
   "theorems": [
    "Verif.Props.C93_independent",
    "Verif.Props.C93_percent"
   ],
   "note": "C93_independent: the genes are mutated independently of each other, each with the share of the draws that are less than the probability; C93_percent: if the draws are evenly spread between 0 and 100, up to `100 δ`, then this share is the probability in percent, up to `δ` and one draw"
  },
  {
   "property": "C94",
   "status": "proved",
   "theorems": [
    "Verif.Props.C94_splice",
    "Verif.Props.C94_below",
    "Verif.Props.C94_range",
    "Verif.Props.C94_above",
    "Verif.Props.C94_infinite",
    "Verif.Props.C94_zero"
   ],
   "note": "C94_splice: the parents are `ma * 2^ea` and `mb * 2^eb` with whole mantissas of full length; C94_below: if the first parent is less than `2^52` (`f64`; `2^23` for `f32`) in magnitude, then so is the child, whatever the second parent is (even infinite or NaN); C94_range: if both parents lie between the powers of two with the exponents `mw + j * 2^k` and `mw + (j + 1) * 2^k` (normal numbers), then so does the child; C94_above: if the first parent is finite and at least `2^52` (`2^23` for `f32`) in magnitude and the second one is normal, then the child is at least that too (or infinite); C94_infinite: beyond `2^52` the child of two finite numbers can be infinite (`2^60` crossed with 1); C94_zero: the child of two positive normal numbers can be zero (the smallest one crossed with `2^-12`)"
  },
  {
   "property": "C95",
   "status": "proved",
   "theorems": [
    "Verif.Props.C95_canonical",
    "Verif.Props.C95_inertia",
    "Verif.Props.C95_inertia_escapes",
    "Verif.Props.C95_classic",
    "Verif.Props.C95_classic_escapes",
    "Verif.Props.C95_canonical_random"
   ],
   "note": "C95_canonical: CanonicalVelocityCalculator: with any accepted parameters and steady random factors (not zero), the particle converges to the mean of its own best and the best of the swarm, weighted with phi_p and phi_g, and its velocity to zero; C95_inertia: InertiaVelocityCalculator with ConstInertia below 1: the same as long as the pull is below `2 (1 + w)`; C95_inertia_escapes: the same calculator pulled harder: a particle that is at rest away from that mean runs away geometrically; C95_classic: ClassicVelocityCalculator below the pull 4: the particle stays within a bound and does not converge to anything, unless it is at rest on the mean from the start; C95_classic_escapes: ClassicVelocityCalculator above the pull 4: a particle at rest away from the mean runs away geometrically; C95_canonical_random: the random factors matter: with the values of the schwefel example, constructed by `new`, and random factors that are 0 in one iteration and 1 in the next, the particle runs away geometrically, although the goal is constant and both bests stay on 0"
  },
  {
   "property": "C96",
   "status": "proved",
   "theorems": [
    "Verif.Props.C96_bits",
    "Verif.Props.C96_uniform",
    "Verif.Props.C96_mean"
   ],
   "note": "C96_bits: crossing bitwise without mutation, at every point of every history each bit of each gene of each individual, and of each point at which the goal was called in this run, is found in the same gene of a chromosome with which the run began; C96_uniform: if all chromosomes with which the run began are the same, crossing bitwise without mutation never calls the goal anywhere else; C96_mean: crossing by the mean without mutation, at every point of every history each gene of each individual, and of each point at which the goal was called in this run, lies between two genes that chromosomes with which the run began have in the same place"
  },
  {
   "property": "C97",
   "status": "proved",
   "theorems": [
    "Verif.Props.C97_coordinate",
    "Verif.Props.C97_together",
    "Verif.Props.C97_zero_velocity",
    "Verif.Props.C97_maxVelocityDimensions",
    "Verif.Props.C97_negative_limit",
    "Verif.Props.C97_maxVelocityAbs",
    "Verif.Props.C97_moveToBoundary"
   ],
   "note": "C97_coordinate: if coordinate `i` of all particles is equal to `c` when the swarm is created, and no particle has a velocity in this direction, then at every point of this run coordinate `i` of every particle, of its own best and worst position, of the best and worst of the swarm and of every argument of the goal is equal to `c`, and no particle has a velocity in this direction; C97_together: if all particles are created in the same place without velocity, above all if there is only one particle, the goal is never called in another place; C97_zero_velocity: ZeroVelocityInitializer makes velocities of 0; C97_maxVelocityDimensions: MaxVelocityDimensions keeps a velocity of 0 unless the limit is negative or NaN; C97_negative_limit: a negative limit sets a particle at rest in motion; C97_maxVelocityAbs: MaxVelocityAbs keeps a velocity of 0 unless the limit is negative; C97_moveToBoundary: MoveToBoundary keeps a coordinate that lies in its interval"
  },
  {
   "property": "C98",
   "status": "proved",
   "theorems": [
    "Verif.Props.C98_genetic",
    "Verif.Props.C98_swarm",
    "Verif.Props.C98_components",
    "Verif.Props.C98_intervals",
    "Verif.Props.C98_velocities",
    "Verif.Props.C98_stop_checkers",
    "Verif.Props.C98_genetic_find_min",
    "Verif.Props.C98_swarm_find_min",
    "Verif.Props.C98_goalNotChange_witness",
    "Verif.Props.C98_threshold_witness"
   ],
   "note": "C98_genetic: (genetic): two optimizers with the same components, except that their goal functions return different values which are ordered in the same way, and any history of calls with the same random numbers; C98_swarm: (swarm): the same for the swarm optimizer; the positions, velocities and personal bests are the same on both sides; C98_components: the library's pairing methods pair the same individuals, and its selections kill the same ones; C98_intervals: the interval checks do not look at goal values; C98_velocities: all velocity calculators; C98_stop_checkers: of the stop checkers MaxIterations, and Threshold if it is moved along with the values; also inside composite checkers; C98_genetic_find_min: (genetic, library): find_min of a new optimizer with tournaments, KillFitnessNaN, LimitPopulation, the pre-birth interval check and MaxIterations, whatever creator, crossing and mutation it has, on two goal functions that rank the points in the same way: with the same random numbers both panic in the same way, or both return the same point, having evaluated the same points in the same order; C98_swarm_find_min: (swarm, library): find_min of a new swarm with any initializers and the canonical velocity calculator and MaxIterations, on two goal functions that rank the points in the same way; C98_goalNotChange_witness: GoalNotChange is not among these stop checkers: a delta of 1/1000 on goal values that rank the points in the same way, 1 and 0 or 2^-40 and 0; the first search makes 4 generations, the second one 3; C98_threshold_witness: a Threshold has to be moved along with the values: at 1/1000 the first search goes on to the second generation, the second one stops after the first"
  },
  {
   "property": "C99",
   "status": "proved",
   "theorems": [
    "Verif.Props.C99_representation"
   ],
   "note": "C99_representation: take two genetic optimizers over different types of chromosomes, and let `H` say which chromosomes of the two correspond"
  },
  {
   "property": "C100",
   "status": "proved",
   "theorems": [
    "Verif.Props.C100_mirror",
    "Verif.Props.C100_mirror_velocities",
    "Verif.Props.C100_mirror_hooks",
    "Verif.Props.C100_stop_checkers",
    "Verif.Props.C100_mirror_find_min",
    "Verif.Props.C100_boundary_witness",
    "Verif.Props.C100_affine",
    "Verif.Props.C100_affine_components"
   ],
   "note": "C100_mirror: (floats): two swarm optimizers whose components do to mirrored points and velocities what the others do to the points and velocities; the goals have the same values at mirrored points; C100_mirror_velocities: (floats): the velocity calculators; C100_mirror_hooks: (floats): MaxVelocityDimensions, unless a limit is negative, MaxVelocityAbs, and MoveToBoundary with mirrored intervals, for coordinates that are finite; C100_stop_checkers: the stop checkers, GoalNotChange among them, do not look at points; C100_mirror_find_min: (floats): any goal that does not tell 0 from -0 and its mirror image, any initializers and their mirror images, here with the velocity calculator with inertia, MaxVelocityAbs and MaxIterations: the search on the mirror image calls the goal at the mirror images of the points, in the same order, and finds the mirror image of what the search finds, with the same value; C100_boundary_witness: MoveToBoundary has a preferred direction for coordinates that are not finite: an infinite coordinate, whatever its sign, is moved to the lower end of the interval [-1, 1]; C100_affine: (exact arithmetic): in other units and with another origin for each coordinate, all positions are the same positions in these units, the velocities are the same velocities, and the goal values are the same; C100_affine_components: (exact arithmetic): the velocity calculators, MaxVelocityDimensions with limits in the other units and MoveToBoundary with the intervals in the other units"
  },
  {
   "property": "C101",
   "status": "proved",
   "theorems": [
    "Verif.Props.C101_classic",
    "Verif.Props.C101_canonical",
    "Verif.Props.C101_inertia",
    "Verif.Props.C101_negative",
    "Verif.Props.C101_linear_inertia",
    "Verif.Props.C101_linear_inertia_lower",
    "Verif.Props.C101_constriction",
    "Verif.Props.C101_underflow_witness"
   ],
   "note": "C101_classic: ClassicVelocityCalculator: 5 roundings; C101_canonical: CanonicalVelocityCalculator: 6 roundings; C101_inertia: InertiaVelocityCalculator: 5 roundings, with the weight it got; C101_negative: NegativeReinforcement: 10 roundings; C101_linear_inertia: LinearInertia, for iteration numbers that the number type has exactly (up to 2^24 for `f32`, 2^53 for `f64`): 4 roundings; C101_linear_inertia_lower: so the weight falls below `wMin` up to `tMax` by rounding errors only; C101_constriction: the constriction factor of CanonicalVelocityCalculator: if the sum of the coefficients does not overflow it is 2 alpha / (phi_p + phi_g - 2) up to 6 roundoffs, in every format with at least 4 bits of precision; C101_underflow_witness: a relative error only would be too much to ask: with the smallest positive number as coefficient, a factor 1/2 and a distance of 2^1000 the formula gives 0 instead of 2^-75, since the product of the first two underflows"
  },
  {
   "property": "C102",
   "status": "proved",
   "theorems": [
    "Verif.Props.C102_creator",
    "Verif.Props.C102_initializers",
    "Verif.Props.C102_uniform",
    "Verif.Props.C102_teleport",
    "Verif.Props.C102_teleport_probability"
   ],
   "note": "C102_creator: RandomCreator: all genes of all chromosomes are independent of each other; each has the distribution of a draw from its interval; C102_initializers: RandomCoordinatesInitializer and RandomVelocityInitializer: the same; C102_uniform: if the draws are evenly spread over the interval of a gene, up to `δ` times its length, then the chance that the gene is less than `c` is the part of the interval below `c`, up to `δ` and one draw; C102_teleport: RandomTeleport: with the chance `teleportShare` the particle gets new coordinates, each drawn from its interval, independently of each other; otherwise it stays; C102_teleport_probability: if the draws between 0 and 1 are evenly spread, up to `δ`, then this chance is the probability given to the constructor, up to `δ` and one draw"
  },
  {
   "property": "C103",
   "status": "proved",
   "theorems": [
    "Verif.Props.C103_creator",
    "Verif.Props.C103_initializers",
    "Verif.Props.C103_value",
    "Verif.Props.C103_inner",
    "Verif.Props.C103_last",
    "Verif.Props.C103_first",
    "Verif.Props.C103_zero",
    "Verif.Props.C103_other_end",
    "Verif.Props.C103_unequal_witness"
   ],
   "note": "C103_creator: RandomCreator: all integer genes of all chromosomes are independent of each other; each is a draw from its interval with its fractional part cut off; C103_initializers: the initializers of the swarm: the same; C103_value: if the draws are evenly spread over the interval of the gene, up to `δ` times its length, then the chance of a value is the part of the interval whose numbers are cut to it, up to `2 δ` and one draw; C103_inner: except for 0 and the ends, the values of the interval are equally likely: one in its length `hi - lo`; C103_last: the greatest value of an interval that ends above 0 almost never comes up, although the interval includes it; C103_first: the least value of an interval that begins below 0 alike; C103_zero: inside an interval 0 is twice as likely as the other values; C103_other_end: the ends at which 0 is not cut to from both sides count as inner values: a first value from 0 on, a last value up to 0; C103_unequal_witness: the values of an interval are not equally likely: 0 is drawn from [-1, 1] three times out of four, -1 once, 1 not at all"
  },
  {
   "property": "C104",
   "status": "proved",
   "theorems": [
    "Verif.Props.Swarm.C104_finds",
    "Verif.Props.Swarm.C104_below",
    "Verif.Props.Swarm.C104_limit",
    "Verif.Props.Swarm.C104_mean_time",
    "Verif.Props.Swarm.C104_library",
    "Verif.Props.Swarm.C104_region",
    "Verif.Props.Swarm.C104_example"
   ],
   "note": "C104_finds: a fresh optimizer with RandomTeleport among its post-move hooks, stopped after `last` iterations, returns with a chance of at least `1 - (1 - c) ^ (n * (last + 1))` a solution that is not worse than a value of the goal in the region, whatever the region, the goal, the initializers and the velocity calculator are; `c` is the chance that one teleport leads into the region; C104_below: if the values of the goal in the region are finite and at most `bound`, then so is the value found, with the same chance; C104_limit: in the long run the region is found almost certainly: if the teleports can lead into the region at all and the swarm is not empty, then for every `ε` there is a number of iterations from which on the chance is at least `1 - ε`; C104_mean_time: how long it takes; C104_library: the library's components draw boundedly many random numbers and do not panic, so the theorems above are about them; C104_region: the chance to hit a box-like region is the product of the chances of the coordinates; C104_example: After two iterations a value of at most 1/4 has been found with a chance of at least `1 - (3/4)^9`, more than 92 percent, whatever the initial swarm and the velocities are; in the long run it is found almost certainly"
  },
  {
   "property": "C105",
   "status": "proved",
   "theorems": [
    "Verif.Props.C105_line",
    "Verif.Props.C105_reach",
    "Verif.Props.C105_only",
    "Verif.Props.C105_all",
    "Verif.Props.C105_even",
    "Verif.Props.C105_half",
    "Verif.Props.C105_neg",
    "Verif.Props.C105_example"
   ],
   "note": "C105_line: `n` mutations of `k` flips each do what one mutation of `n * k` flips does; C105_reach: the values that `n` mutations in a row can make of `x` are exactly those that differ from it in at most `n * k` bits, and in an even number of bits if and only if `n * k` is even; C105_only: with no generator can a line of mutations reach more; C105_all: an odd number of flips; C105_even: an even number of flips; C105_half: an even number of flips, not zero; C105_neg: with an even number of flips the sign alone is never turned; C105_example: 1.0 and 2.0 differ in 11 bits, 1.0 and 3.0 in 12: an even number of flips can lead from 1.0 to 3.0 and not to 2.0 …"
  },
  {
   "property": "C106",
   "status": "proved",
   "theorems": [
    "Verif.Props.Swarm.C106_calculator",
    "Verif.Props.Swarm.C106_correctors",
    "Verif.Props.Swarm.C106_finite",
    "Verif.Props.Swarm.C106_moved",
    "Verif.Props.Swarm.C106_wild_witness",
    "Verif.Props.Swarm.C106_examples",
    "Verif.Props.Swarm.C106_statistics",
    "Verif.Props.Swarm.C106_nan_calculator",
    "Verif.Props.Swarm.C106_nan_correctors",
    "Verif.Props.Swarm.C106_stuck"
   ],
   "note": "C106_calculator: what the calculators compute is finite; C106_correctors: the correctors keep velocities finite and bring them down to `B`; C106_finite: throughout any history of a calm swarm every velocity that is computed is finite and at most `V`, and every velocity that a particle has is finite and at most `B`; C106_moved: if moreover no place of the box is farther than `X` from zero, `X + B` does not overflow and the initial coordinates are within `X + B`, then all positions are finite before the post-move hooks see them: MoveToBoundary never meets NaN or an infinity; C106_wild_witness: without the condition on `V` it can happen: with coefficients so large that the computed velocity overflows, MaxVelocityAbs turns it into NaN. The components are the library's; C106_examples: the velocities of the example programs are finite, whatever the random source delivers: those of particleswarm-paraboloid are at most 11, of particleswarm-schwefel and particleswarm-schwefel-iterative at most 707, and without any corrector those of particleswarm-rastrigin are at most 10 and those of particleswarm-rosenbrock at most 6; C106_statistics: the same for the optimizers of the swarm statistics programs: velocities of at most 707, in particleswarm-rosenbrock-statistics of at most 3; C106_nan_calculator: a calculator of the library makes NaN of NaN, in the same component; C106_nan_correctors: so do the correctors; C106_stuck: with a calculator and correctors of the library and MoveToBoundary as the post-move hook, a component of a velocity that is NaN is NaN after every later turn of the loop, and that coordinate of the particle is at the lower end of its interval"
  },
  {
   "property": "C107",
   "status": "proved",
   "theorems": [
    "Verif.Props.C107_cross",
    "Verif.Props.C107_mutate",
    "Verif.Props.C107_vec_cross",
    "Verif.Props.C107_crossing",
    "Verif.Props.C107_mutation",
    "Verif.Props.C107_search",
    "Verif.Props.C107_find_min",
    "Verif.Props.C107_signs",
    "Verif.Props.C107_intervals",
    "Verif.Props.C107_mirrored",
    "Verif.Props.C107_mean_witness"
   ],
   "note": "C107_cross: CrossBitwise on one gene; C107_mutate: BitwiseMutation on one gene, with any number of flips; C107_vec_cross: VecCrossAllGenes; C107_crossing: VecCrossAllGenes with CrossBitwise; C107_mutation: VecMutation with BitwiseMutation: whether a gene is mutated does not depend on its bits, and what the flips do to turned bits is what they do to the bits, turned; C107_search: two genetic searches with the components of the library that work bit by bit; C107_find_min: `find_min` with the tournament, KillFitnessNaN and LimitPopulation: search with any goal from any initial population, and search with the goal that turns its argument over first, from the turned population; C107_signs: turning the sign bits over is negation, for infinite genes and NaN too; C107_intervals: both interval checks, with the intervals of the negated genes mirrored, treat a chromosome and its mirror image alike; C107_mirrored: mirrored searches: a goal that does not change when the chosen genes are negated, any intervals with their mirror images as pre-birth filter and as selection; C107_mean_witness: not so with CrossMean: the mean of 1 and -1 is +0, and so is the mean of their mirror images -1 and 1"
  },
  {
   "property": "C108",
   "status": "proved",
   "theorems": [
    "Verif.Props.Initial.C108_swarm",
    "Verif.Props.Initial.C108_swarm_below",
    "Verif.Props.Initial.C108_boundary",
    "Verif.Props.Initial.C108_best",
    "Verif.Props.Initial.C108_genetic",
    "Verif.Props.Initial.C108_genetic_below",
    "Verif.Props.Initial.C108_region",
    "Verif.Props.Initial.C108_swarm_example",
    "Verif.Props.Initial.C108_genetic_example",
    "Verif.Props.Initial.C108_limit_witness"
   ],
   "note": "C108_swarm: a fresh swarm optimizer whose `n` initial points are drawn at random finds, with a chance of at least `1 - (1 - c) ^ n`, a solution that is not worse than the goal at a point of the region: whatever the region, the goal, the velocity calculator and the stop checker are; C108_swarm_below: a swarm put together from the library and a stop checker that stops at iteration `last` at the latest: if the goal is at most `bound` in the region, then `find_min` returns a value of at most `bound` with this chance; C108_boundary: MoveToBoundary does not lead out of a region inside its intervals; C108_best: with selections that keep the best individual, the solution that `find_min` returns after a generation or more is not worse than any finite value that was evaluated since the population was created, after any history; C108_genetic: a fresh genetic optimizer with RandomCreator and selections that keep the best individual finds, with a chance of at least `1 - (1 - c) ^ n`, a solution that is not worse than the goal at a point of the region, whatever the region, the goal, the pairing, the crossing, the mutation and the stop checker are, if it ends after a generation or more; C108_genetic_below: a genetic optimizer put together from the library: if the goal is at most `bound` in the region, then `find_min` returns a value of at most `bound` with this chance; C108_region: the chance of a box-like region is the product of the chances of the coordinates; C108_swarm_example: A value of at most 1/4 is found in at least 7 of 8 runs, however few iterations there are; C108_genetic_example: A value of at most 1/4 is found in at least 15 of 16 runs; C108_limit_witness: with LimitPopulation the search can lose what it has found: the goal was 1 at a point, but the solution returned has the value 2"
  },
  {
   "property": "C109",
   "status": "proved",
   "theorems": [
    "Verif.Props.Mutating.C109_visits",
    "Verif.Props.Mutating.C109_finds",
    "Verif.Props.Mutating.C109_below",
    "Verif.Props.Mutating.C109_limit",
    "Verif.Props.Mutating.C109_mean_time",
    "Verif.Props.Mutating.C109_library",
    "Verif.Props.Mutating.C109_near",
    "Verif.Props.Mutating.C109_example",
    "Verif.Props.Mutating.C109_stalls",
    "Verif.Props.Mutating.C109_stalls_library"
   ],
   "note": "C109_visits: if every mutation leads into the region with a chance of at least `q` and there are `b` children or more in a generation, then after `last` generations a point of the region has been evaluated with a chance of at least `1 - (1 - q) ^ (b * last)`, whatever the region, the goal, the initial population, the pairing, the crossing and the selections are; C109_finds: if moreover the selections keep the best individual, then the search returns, with this chance, a solution that is not worse than the goal at a point of the region; C109_below: if the values of the goal in the region are finite and at most `bound`, then the value found is at most `bound`, with this chance; C109_limit: in the long run the region is found almost certainly: for every `ε` there is a number of generations from which on the chance is at least `1 - ε`; C109_mean_time: how long it takes; C109_library: then the theorems above are about the optimizer: every mutation leads into the region with a chance of at least `1 / m ^ ((1 + count) * d)`, where `d` is the number of genes and `m` the number of values of a draw; C109_near: if BitwiseMutation flips as many bits as the type has or more, then a condition can be reached from everywhere if two values that differ in an odd number of bits meet it, such as two neighbours of which the smaller ends with a 0 bit; C109_example: For every `ε` there is a number of generations from which on a value of at most 1/4 is found with a chance of at least `1 - ε`; C109_stalls: with RandomPairing and one individual no family is ever built: whatever the draws, the number of generations, the goal and the mutation are, the one initial point is the only one that is evaluated; C109_stalls_library: An optimizer of the library with RandomPairing and a population of one is such an optimizer"
  },
  {
   "property": "C110",
   "status": "proved",
   "theorems": [
    "Verif.Props.C110_chance",
    "Verif.Props.C110_binomial",
    "Verif.Props.C110_mean",
    "Verif.Props.C110_deviation",
    "Verif.Props.C110_estimates",
    "Verif.Props.C110_swarm_schwefel",
    "Verif.Props.C110_swarm_schwefel_full",
    "Verif.Props.C110_swarm_schwefel_inertia",
    "Verif.Props.C110_swarm_rastrigin_inertia",
    "Verif.Props.C110_swarm_rosenbrock",
    "Verif.Props.C110_genetic_schwefel",
    "Verif.Props.C110_spread_witness"
   ],
   "note": "C110_chance: what the chance of success of a single run is does not depend on what is left behind by other runs, nor on how many draws there are if only there are enough of them; C110_binomial: the number of good results that the program counts has the binomial distribution, whatever the scheduler does: with `cpu` threads that do `runs` runs each and have enough draws, the chance of exactly `k` good results is that of `k` successes in `cpu * runs` independent trials; C110_mean: the mean value of the share of good results is the chance of success; C110_deviation: how likely it is that the share of good results is far from the chance of success; C110_estimates: the success rate that a statistics program prints differs from the chance of success by `δ` or more, apart from the rounding error, with a chance of at most `p (1 - p) / (n δ ^ 2)` in `n` runs; C110_swarm_schwefel: particleswarm-schwefel-statistics.rs; C110_swarm_schwefel_full: particleswarm-schwefel-statistics-full.rs; C110_swarm_schwefel_inertia: particleswarm-schwefel-statistics-inertia.rs; C110_swarm_rastrigin_inertia: particleswarm-rastrigin-statistics-inertia.rs; C110_swarm_rosenbrock: particleswarm-rosenbrock-statistics.rs; C110_genetic_schwefel: genetic-schwefel-statistics.rs; C110_spread_witness: the rate need not be near the chance if there are few runs: two runs of a coin, on two processors, are both good or both bad with a chance of one half"
  },
  {
   "property": "C111",
   "status": "proved",
   "theorems": [
    "Verif.Props.Restart.C111_genetic",
    "Verif.Props.Restart.C111_swarm",
    "Verif.Props.Restart.C111_genetic_miss",
    "Verif.Props.Restart.C111_swarm_miss",
    "Verif.Props.Restart.C111_swarm_library",
    "Verif.Props.Restart.C111_genetic_library",
    "Verif.Props.Restart.C111_example",
    "Verif.Props.Restart.C111_state_witness"
   ],
   "note": "C111_genetic: (genetic): how many of `n` calls of `find_min` return something good has the binomial distribution: the calls are independent trials, each of which succeeds with the chance that a single call has; C111_swarm: (swarm): the same for the swarm; C111_genetic_miss: (genetic): if a single call finds a value of at most `bound` with the chance `p`, then `n` calls all miss it with the chance `(1 - p) ^ n`; C111_swarm_miss: (swarm): the same for the swarm; C111_swarm_library: a swarm put together from the library, with a bounded number of iterations: its restarts are independent; C111_genetic_library: a genetic optimizer put together from the library, with a bounded number of generations: its restarts are independent; C111_example: In `n` throws the coin never shows 0 with the chance `1 / 2 ^ n`; C111_state_witness: the condition is needed: with a `GoalNotChange` a run need not find what it finds with a new one"
  },
  {
   "property": "C112",
   "status": "proved",
   "theorems": [
    "Verif.Props.Split.C112_genetic",
    "Verif.Props.Split.C112_genetic_whole",
    "Verif.Props.Split.C112_genetic_max",
    "Verif.Props.Split.C112_swarm",
    "Verif.Props.Split.C112_swarm_whole",
    "Verif.Props.Split.C112_swarm_max",
    "Verif.Props.Split.C112_checkers",
    "Verif.Props.Split.C112_genetic_again",
    "Verif.Props.Split.C112_swarm_again",
    "Verif.Props.Split.C112_swarm_continue",
    "Verif.Props.Split.C112_swarm_more",
    "Verif.Props.Split.C112_checker_witness",
    "Verif.Props.Split.C112_genetic_worse",
    "Verif.Props.Split.C112_genetic_program",
    "Verif.Props.Split.C112_swarm_program"
   ],
   "note": "C112_genetic: (genetic): a run in one go with the stop checker `P` that ends (`hf`) ends as the run in parts: `find_min` with the first stop checker, then `next_iterations` with each of the others, the last of which is `P`. All of them stop at the latest when `P` does (`hQ`); how early they stop, and how many there are, does not matter; C112_genetic_whole: (genetic), the other way round: if the run in parts ends then so does the run in one go, and as it; C112_genetic_max: (genetic) for a limit of the number of generations: `find_min` up to `n` generations, and then `next_iterations` up to `m`, does what `find_min` up to `m` generations does; C112_swarm: (swarm): a run in one go with the stop checker `P` that ends (`hf`) ends as the run in parts: `find_min` with the first stop checker, then `next_iterations` with each of the others, the last of which is `P`. All of them stop at the latest when `P` does (`hQ`); how early they stop, and how many there are, does not matter; C112_swarm_whole: (swarm), the other way round: if the run in parts ends then so does the run in one go, and as it; C112_swarm_max: (swarm) for a limit of the number of iterations: `find_min` up to `n` iterations, and then `next_iterations` up to `m`, does what `find_min` up to `m` iterations does; C112_checkers: every stop checker of the library may be asked again: MaxIterations, Threshold, GoalNotChange with its fields anywhere, and a composition of such ones if none changes the fields of one before it, which is so for objects with separate fields; C112_genetic_again: (genetic): calling `next_iterations` once more after `find_min` or `next_iterations` has returned, with the same stop checker, returns the same and does nothing: no iteration is done, no goal evaluated, and nothing is changed but the fields of the loggers; C112_swarm_again: (swarm): calling `next_iterations` once more after `find_min` or `next_iterations` has returned, with the same stop checker, returns the same and does nothing; C112_swarm_continue: the swarm's `next_iterations` never returns anything worse than what had been found before; C112_swarm_more: more iterations never hurt a swarm; C112_checker_witness: fails for a stop checker with fields: a GoalNotChange that is given to the optimizer for the continuation begins to count when it is first asked; C112_genetic_worse: fails for the genetic optimizer: more generations may give a worse answer for the same random numbers, with the library's LimitPopulation; C112_genetic_program: genetic-schwefel-iterative.rs, with whatever loggers, ends as it would with 500 generations in one go; C112_swarm_program: particleswarm-schwefel-iterative.rs, with whatever loggers, ends as it would with 150 iterations in one go"
  },
  {
   "property": "C113",
   "status": "proved",
   "theorems": [
    "Verif.Props.C113_single",
    "Verif.Props.C113_average",
    "Verif.Props.C113_error",
    "Verif.Props.C113_variance",
    "Verif.Props.C113_near",
    "Verif.Props.C113_printed",
    "Verif.Props.C113_estimates",
    "Verif.Props.C113_deviation",
    "Verif.Props.C113_swarm_schwefel",
    "Verif.Props.C113_swarm_schwefel_full",
    "Verif.Props.C113_swarm_schwefel_inertia",
    "Verif.Props.C113_swarm_rastrigin_inertia",
    "Verif.Props.C113_swarm_rosenbrock",
    "Verif.Props.C113_genetic_schwefel",
    "Verif.Props.C113_deviation_witness"
   ],
   "note": "C113_single: a number that is computed from the solution of a single run has exactly one mean value; C113_average: the mean value of the average over all runs of a program is the mean value of a single run, whatever the scheduler does; C113_error: the mean value of the square of the error of the average is the variance of a single run, divided by the number of runs; C113_variance: the mean value of the sample variance is the variance of a single run: the divisor, one less than the number of runs, is the right one; C113_near: how likely it is that the average over all runs of a program is far from the mean value of a single run; C113_printed: what is printed, if it is finite, is the exact average and the root of the exact sample variance up to rounding errors; C113_estimates: the average goal that a statistics program prints is an estimate of the mean goal of a single run; C113_deviation: on average the standard deviation, the root of the sample variance, is at most the standard deviation of a single run; C113_swarm_schwefel: particleswarm-schwefel-statistics.rs; C113_swarm_schwefel_full: particleswarm-schwefel-statistics-full.rs; C113_swarm_schwefel_inertia: particleswarm-schwefel-statistics-inertia.rs; C113_swarm_rastrigin_inertia: particleswarm-rastrigin-statistics-inertia.rs; C113_swarm_rosenbrock: particleswarm-rosenbrock-statistics.rs; C113_genetic_schwefel: genetic-schwefel-statistics.rs; C113_deviation_witness: the standard deviation of two throws of a coin is less than that of a single throw on average: the root of 1/8 and not 1/2"
  },
  {
   "property": "C114",
   "status": "proved",
   "theorems": [
    "Verif.Props.C114_single",
    "Verif.Props.C114_average",
    "Verif.Props.C114_total",
    "Verif.Props.C114_near",
    "Verif.Props.C114_estimates",
    "Verif.Props.C114_swarm_schwefel",
    "Verif.Props.C114_swarm_schwefel_full",
    "Verif.Props.C114_swarm_schwefel_inertia",
    "Verif.Props.C114_swarm_rastrigin_inertia",
    "Verif.Props.C114_genetic_schwefel",
    "Verif.Props.C114_swarm_rosenbrock"
   ],
   "note": "C114_single: the number of calls of a single run has exactly one mean value, between 0 and the bound; C114_average: the mean value of the average call count of a program is that of the number of calls of a single run, whatever the scheduler does; C114_total: the mean value of the total number of calls of a program is that of a single run times the number of runs; C114_near: how likely it is that the average call count is far from the mean value of a single run; C114_estimates: the average call count that a statistics program prints is an estimate of the mean number of calls of a single run; C114_swarm_schwefel: particleswarm-schwefel-statistics.rs; C114_swarm_schwefel_full: particleswarm-schwefel-statistics-full.rs; C114_swarm_schwefel_inertia: particleswarm-schwefel-statistics-inertia.rs; C114_swarm_rastrigin_inertia: particleswarm-rastrigin-statistics-inertia.rs; C114_genetic_schwefel: genetic-schwefel-statistics.rs; C114_swarm_rosenbrock: particleswarm-rosenbrock-statistics.rs"
  },
  {
   "property": "C115",
   "status": "proved",
   "theorems": [
    "Verif.Props.C115_all",
    "Verif.Props.C115_single",
    "Verif.Props.C115_average",
    "Verif.Props.C115_estimates",
    "Verif.Props.C115_swarm_schwefel",
    "Verif.Props.C115_swarm_schwefel_full",
    "Verif.Props.C115_swarm_schwefel_inertia",
    "Verif.Props.C115_swarm_rastrigin_inertia",
    "Verif.Props.C115_swarm_rosenbrock",
    "Verif.Props.C115_genetic_schwefel",
    "Verif.Props.C115_genetic_schwefel_rows",
    "Verif.Props.C115_early_witness"
   ],
   "note": "C115_all: the chance that all runs of a program last beyond iteration `i`; C115_single: the mean goal at iteration `i` of the runs that last beyond it, and the variance; C115_average: the exact average at iteration `i` in the cases where all runs last beyond it: its mean value, that of the square of its error, and how likely it is to be far off; C115_estimates: the averaged convergence that a statistics program prints is an estimate of the progress of the runs that last; C115_swarm_schwefel: particleswarm-schwefel-statistics.rs; C115_swarm_schwefel_full: particleswarm-schwefel-statistics-full.rs; C115_swarm_schwefel_inertia: particleswarm-schwefel-statistics-inertia.rs; C115_swarm_rastrigin_inertia: particleswarm-rastrigin-statistics-inertia.rs; C115_swarm_rosenbrock: particleswarm-rosenbrock-statistics.rs; C115_genetic_schwefel: genetic-schwefel-statistics.rs; C115_genetic_schwefel_rows: all runs of genetic-schwefel-statistics.rs last for 3000 iterations, so each of the entries 0 to 2999 is always printed; C115_early_witness: the averaged convergence does not tell how a typical run goes on"
  },
  {
   "property": "C116",
   "status": "proved",
   "theorems": [
    "Verif.Props.C116_falling",
    "Verif.Props.C116_swarm_schwefel",
    "Verif.Props.C116_swarm_schwefel_full",
    "Verif.Props.C116_swarm_schwefel_inertia",
    "Verif.Props.C116_swarm_rastrigin_inertia",
    "Verif.Props.C116_swarm_rosenbrock",
    "Verif.Props.C116_genetic_witness"
   ],
   "note": "C116_falling: the averaged convergence of faithful records of runs of a swarm does not rise, however the data are merged; C116_swarm_schwefel: particleswarm-schwefel-statistics.rs; C116_swarm_schwefel_full: particleswarm-schwefel-statistics-full.rs; C116_swarm_schwefel_inertia: particleswarm-schwefel-statistics-inertia.rs; C116_swarm_rastrigin_inertia: particleswarm-rastrigin-statistics-inertia.rs; C116_swarm_rosenbrock: particleswarm-rosenbrock-statistics.rs; C116_genetic_witness: fails for the genetic optimizer: a run with the library's LimitPopulation may lose its best solution"
  },
  {
   "property": "C117",
   "status": "proved",
   "theorems": [
    "Verif.Props.C117_order",
    "Verif.Props.C117_schedule",
    "Verif.Props.C117_swarm_schwefel",
    "Verif.Props.C117_swarm_schwefel_full",
    "Verif.Props.C117_swarm_schwefel_inertia",
    "Verif.Props.C117_swarm_rastrigin_inertia",
    "Verif.Props.C117_swarm_rosenbrock",
    "Verif.Props.C117_genetic_schwefel",
    "Verif.Props.C117_genetic_rosenbrock",
    "Verif.Props.C117_rounding_witness"
   ],
   "note": "C117_order: data of the same runs in another order are printed alike; C117_schedule: two executions of a program with the same random numbers in each thread print the same up to the order of the threads and rounding; C117_swarm_schwefel: particleswarm-schwefel-statistics.rs; C117_swarm_schwefel_full: particleswarm-schwefel-statistics-full.rs; C117_swarm_schwefel_inertia: particleswarm-schwefel-statistics-inertia.rs; C117_swarm_rastrigin_inertia: particleswarm-rastrigin-statistics-inertia.rs; C117_swarm_rosenbrock: particleswarm-rosenbrock-statistics.rs; C117_genetic_schwefel: genetic-schwefel-statistics.rs; C117_genetic_rosenbrock: genetic-rosenbrock-statistics.rs, if each run ends within `m` generations; C117_rounding_witness: the rounding may differ: two executions of a program with the same random numbers print different averages"
  },
  {
   "property": "C118",
   "status": "proved",
   "theorems": [
    "Verif.Props.C118_rate",
    "Verif.Props.C118_rate_goal",
    "Verif.Props.C118_rate_vec",
    "Verif.Props.C118_rate_unite",
    "Verif.Props.C118_average",
    "Verif.Props.C118_convergence",
    "Verif.Props.C118_calls",
    "Verif.Props.C118_average_outside"
   ],
   "note": "C118_rate: what accepts more gives a rate that is not smaller; C118_rate_goal: with a larger tolerance of the goal value the success rate is not smaller; C118_rate_vec: with larger tolerances of the coordinates the success rate is not smaller; C118_rate_unite: the success rate of united statistics lies between those of the parts; C118_average: if no run is worse, the average goal is not greater, rounding included; C118_convergence: if no run is worse at any iteration, no entry of the averaged convergence is greater; C118_calls: the average call count lies between the least and the greatest count; C118_average_outside: the average goal need not lie between the least and the greatest goal: that of three times 0.1 is greater than 0.1"
  },
  {
   "property": "C119",
   "status": "proved",
   "theorems": [
    "Verif.Props.C119_mutation",
    "Verif.Props.C119_mutation_less",
    "Verif.Props.C119_crossing",
    "Verif.Props.C119_tournament",
    "Verif.Props.C119_random_pairs",
    "Verif.Props.C119_vector"
   ],
   "note": "C119_mutation: mutation; C119_mutation_less: mutation; C119_crossing: crossing; C119_tournament: tournaments; C119_random_pairs: random pairs; C119_vector: the mutation of a vector"
  },
  {
   "property": "C120",
   "status": "proved",
   "theorems": [
    "Verif.Props.C120_classic",
    "Verif.Props.C120_canonical",
    "Verif.Props.C120_inertia",
    "Verif.Props.C120_negative",
    "Verif.Props.C120_half",
    "Verif.Props.C120_twelfth"
   ],
   "note": "C120_classic: (exact arithmetic): the mean and the variance of the new velocity of ClassicVelocityCalculator; C120_canonical: (exact arithmetic): the mean and the variance of the new velocity of CanonicalVelocityCalculator; C120_inertia: (exact arithmetic): the mean and the variance of the new velocity of InertiaVelocityCalculator, whose inertia has the value `w` in this iteration; C120_negative: (exact arithmetic): the mean and the variance of the new velocity of NegativeReinforcement: drawn to the three best points, pushed away from the three worst ones; C120_half: if the draws are evenly spread from 0 to 1, up to `δ`, then their mean is 1/2, up to `δ`; C120_twelfth: draws that are spread evenly from 0 to 1 without rounding have a variance of a little more than 1/12"
  },
  {
   "property": "C121",
   "status": "proved",
   "theorems": [
    "Verif.Props.C121_canonical",
    "Verif.Props.C121_inertia",
    "Verif.Props.C121_inertia_escapes",
    "Verif.Props.C121_classic"
   ],
   "note": "C121_canonical: (exact arithmetic), CanonicalVelocityCalculator with any accepted parameters: on average each particle converges to the mean of its start and the start of the first particle, weighted with phi_p and phi_g; C121_inertia: (exact arithmetic), InertiaVelocityCalculator with ConstInertia below 1: the same as long as the mean pull is below `2 (1 + w)`; C121_inertia_escapes: (exact arithmetic), the same calculator pulled harder: if the particles start at rest, then the mean place of each of them runs away geometrically, unless it starts on the weighted mean; C121_classic: (exact arithmetic), ClassicVelocityCalculator below the mean pull 4: the mean place of a particle stays within a bound and does not converge to anything, unless the particle starts at rest on the weighted mean"
  },
  {
   "property": "C122",
   "status": "proved",
   "theorems": [
    "Verif.Props.C122_classic",
    "Verif.Props.C122_canonical",
    "Verif.Props.C122_inertia"
   ],
   "note": "C122_classic: (exact arithmetic), ClassicVelocityCalculator: after each iteration the mean square of the velocity of a particle is at least the variance of the draws times (phi_p phi_g)^2 / (phi_p^2 + phi_g^2) times the square of the distance of its start from that of the first particle; C122_canonical: (exact arithmetic), CanonicalVelocityCalculator: the same times xi^2; C122_inertia: (exact arithmetic), InertiaVelocityCalculator: the same as for ClassicVelocityCalculator, whatever the weights of the iterations are"
  }
 ]
}