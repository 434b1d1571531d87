{"id": "C01", "title": "Single-point crossing splices the two parents bit for bit", "statement": "For every pair of parents and every crossing position pos strictly between 0 and the bit width, cross_u8/u16/u32/u64/i8/i16 return without panicking a child whose bit i is the bit i of parent_2 when i < pos and the bit i of parent_1 when i >= pos.", "quantifier": "all parents of all six integer types, all positions 1 <= pos < width", "why_tests_cant": "2^128 parent pairs times 63 positions; the doctests only try all-zeros and all-ones parents", "anchors": ["optlib/src/genetic/cross/mod.rs: cross_u64, cross_u32, cross_u16, cross_u8, cross_i16, cross_i8"]}
{"id": "C02", "title": "Crossing at or beyond the edge position", "statement": "At pos = 0 the unsigned crossings panic when overflow checks are on, and with overflow checks off return the bitwise OR of the parents; the signed crossings return parent_1 unchanged. At pos >= width no crossing returns a value when overflow checks are on; when they are off, every position gives the same child as its remainder modulo the width.", "quantifier": "all parents, all positions outside 1..width-1, both build profiles", "why_tests_cant": "edge positions are untested and depend on the build profile", "anchors": ["optlib/src/genetic/cross/mod.rs: cross_u64 .. cross_i8"]}
{"id": "C03", "title": "CrossBitwise yields one spliced child and keeps the first parent's sign bit", "statement": "For exactly two f32 or f64 parents CrossBitwise returns exactly one child whose bit pattern is the splice of the two patterns at some position in 1..width-1; so the top (sign) bit comes from the first parent and the lowest bit from the second. With any other number of parents it panics.", "quantifier": "all bit patterns including NaN/infinity, every sequence of random draws", "why_tests_cant": "the draw is random and the inputs are 128 bits", "anchors": ["optlib/src/genetic/cross/mod.rs: Cross<f64> for CrossBitwise, Cross<f32> for CrossBitwise, cross_f64, cross_f32"]}
{"id": "C04", "title": "BitwiseMutation flips at most the configured number of bits", "statement": "BitwiseMutation::new(k) returns a float whose bit pattern is the input's with some set of bits flipped, where the number of differing bits is at most k and has the same parity as k; for k = 0 the gene is unchanged and for k = 1 exactly one bit differs.", "quantifier": "all f32/f64 genes, all k, every sequence of random draws", "why_tests_cant": "random positions; repeated positions cancel, which a sampled test rarely sees", "anchors": ["optlib/src/genetic/mutation/mod.rs: BitwiseMutation"]}
{"id": "C05", "title": "VecMutation mutates gene by gene", "statement": "VecMutation returns a vector of the same length; each gene is either the original gene or the single-gene mutation of it. With probability <= 0 (or NaN) the chromosome is unchanged and with probability >= 100 every gene goes through the single-gene mutation.", "quantifier": "all chromosomes, all probabilities, every random sequence, every single-gene mutation", "why_tests_cant": "needs every random sequence and every probability", "anchors": ["optlib/src/genetic/mutation/mod.rs: VecMutation"]}
{"id": "C06", "title": "VecCrossAllGenes builds one child gene by gene", "statement": "For exactly two parents VecCrossAllGenes returns exactly one child, whose genes are in order the concatenated results of the single-gene cross on (parent_1[i], parent_2[i]); when the single cross returns one gene the child has as many genes as parent_1. It panics for any other number of parents and when parent_2 is shorter than parent_1.", "quantifier": "all parents of all lengths, every single-gene cross", "why_tests_cant": "unbounded lengths; the arbitrary inner trait object", "anchors": ["optlib/src/genetic/cross/mod.rs: Cross<Vec<G>> for VecCrossAllGenes"]}
{"id": "C07", "title": "CrossMean child lies between its parents", "statement": "For two finite floating-point parents whose sum does not overflow, the CrossMean child is finite and lies between the smaller and the larger parent, rounding included; in exact arithmetic the child of any n >= 2 parents is their arithmetic mean and lies between their minimum and maximum; with more than two floating-point parents the rounded child can leave their range (ten times 0.1 gives less than 0.1; C83 bounds by how much); fewer than two parents panic.", "quantifier": "all finite float pairs of every IEEE format (f32, f64), all lists of reals", "why_tests_cant": "rounding errors over 2^128 pairs", "anchors": ["optlib/src/genetic/cross/mod.rs: Cross<G> for CrossMean"]}
{"id": "C08", "title": "FloatCrossGeometricMean is the geometric mean", "statement": "In exact arithmetic the child of n >= 2 positive parents is the n-th root of their product, and lies between their minimum and maximum; exactly one child is produced; fewer than two parents panic. In f32 and f64, if no partial product of the parents overflows or comes near underflow and libm's powf has relative error at most e, the child is finite and equals the geometric mean G times exp(t) up to relative error e, with |t| <= u(|ln G| + 3), u the unit roundoff, so it leaves the parents' range by no more than those factors; the three assertions in the type's documentation hold when e <= 9e-8. When a partial product underflows or overflows the child can be 0 or infinite although its parents are equal positive finite numbers.", "quantifier": "all lists of positive reals; all lists of 2 to 2^24 positive f32 or f64 numbers, all powf functions of a given accuracy", "why_tests_cant": "quantifies over all parent lists and over libm implementations", "anchors": ["optlib/src/genetic/cross/mod.rs: Cross<G> for FloatCrossGeometricMean"]}
{"id": "C09", "title": "FloatCrossExp returns one child, NaN only for a zero second parent and a huge first one", "statement": "For any two f32 or f64 parents (even infinite or NaN ones) and any random draws FloatCrossExp returns exactly one child. The child is not NaN unless the second parent is zero and the first is at least 2^52 (f64) or 2^23 (f32) in magnitude, infinite or NaN; in that case it can be NaN (2^60 crossed with 0). Crossing a normal number with itself gives that number back; any other number of parents panics.", "quantifier": "all f32/f64 parents, every sequence of random draws, assuming exp2 is exact on integers", "why_tests_cant": "random cut points and 128-bit inputs; the interesting exponent mixes are rare", "anchors": ["optlib/src/genetic/cross/mod.rs: Cross<T> for FloatCrossExp, cross_u64, cross_i16"]}
{"id": "C10", "title": "RandomCreator fills the population inside the intervals", "statement": "A RandomCreator that was accepted by its constructor creates exactly population_size chromosomes, each with one gene per interval, every gene between the interval's ends inclusive, also after the cast from f64 to the gene type. The constructor panics exactly when the size is zero, the interval list is empty, or some interval is not increasing. (With finite interval ends; an interval with an infinite end passes the constructor but makes creation panic.)", "quantifier": "all sizes, interval lists with finite ends, gene types f32/f64, every random sequence", "why_tests_cant": "random genes, rounding of the f64 sample to f32", "anchors": ["optlib/src/genetic/creation/vec_float.rs: RandomCreator"]}
{"id": "C11", "title": "Swarm initializers produce the promised shapes", "statement": "RandomCoordinatesInitializer and RandomVelocityInitializer with finite interval ends produce particles_count vectors with one entry per interval, each inside its interval. They panic when at least one particle is requested and an interval is not increasing or has an end that is not finite. ZeroVelocityInitializer produces particles_count zero vectors of the given dimension.", "quantifier": "all intervals, counts, dimensions, random sequences", "why_tests_cant": "random samples, unbounded sizes", "anchors": ["optlib/src/tools/mod.rs: RandomVectorCreator::create_vec", "optlib/src/particleswarm/initializing/mod.rs: RandomCoordinatesInitializer::get_coordinates, RandomVelocityInitializer::get_velocity, ZeroVelocityInitializer::get_velocity"]}
{"id": "C12", "title": "KillFitnessNaN kills exactly the non-finite individuals", "statement": "After KillFitnessNaN an individual is alive iff it was alive before and its fitness is finite (NaN and both infinities are killed); nothing else about the population changes.", "quantifier": "all populations", "why_tests_cant": "all populations of all sizes", "anchors": ["optlib/src/genetic/selection/mod.rs: KillFitnessNaN"]}
{"id": "C13", "title": "Selection CheckChromoInterval kills exactly the out-of-range individuals", "statement": "After selection::vec_float::CheckChromoInterval an individual is alive iff it was alive and every gene is finite and inside its interval (an interval end that is NaN excludes nothing on its side); if any individual's gene count differs from the interval count it panics.", "quantifier": "all populations and interval lists", "why_tests_cant": "unbounded sizes and float corner cases", "anchors": ["optlib/src/genetic/selection/vec_float.rs: CheckChromoInterval"]}
{"id": "C14", "title": "Pre-birth CheckChromoInterval keeps exactly the in-range children", "statement": "pre_birth::vec_float::CheckChromoInterval keeps, in order, exactly the chromosomes whose genes are all finite and inside their intervals (an interval end that is NaN excludes nothing on its side), and panics when a chromosome has the wrong number of genes.", "quantifier": "all child lists and interval lists", "why_tests_cant": "unbounded sizes and float corner cases", "anchors": ["optlib/src/genetic/pre_birth/vec_float.rs: CheckChromoInterval"]}
{"id": "C15", "title": "LimitPopulation(max) leaves max individuals alive, one more if the first one was dead", "statement": "LimitPopulation(max) only kills. If the first individual of the population is alive, exactly min(max, number alive before) are alive afterwards. If it is dead, that number or one more: the limit can be exceeded by one, and is always exceeded by one if the fitness of the dead first individual is NaN and more than max are alive, in which case the last max + 1 living individuals stay, whatever their fitness.", "quantifier": "all populations, limits and fitness values", "why_tests_cant": "depends on the whole alive/dead pattern", "anchors": ["optlib/src/genetic/selection/mod.rs: LimitPopulation, kill_worst"]}
{"id": "C16", "title": "When kill_worst(count) kills the worst individuals", "statement": "If no living individual has NaN fitness, the first individual is alive and is the best of the first `count` living ones, or count = 1, kill_worst(count) kills exactly `count` individuals (all, if fewer are alive) and no survivor is worse than a killed one. Without the condition on the first individual a survivor that is worse than a killed one is still not worse than the first individual, and an individual other than the first that is strictly worse than all other living ones is killed; but the best individual of all can be killed (5, 1, 3 with count = 2).", "quantifier": "all populations and counts", "why_tests_cant": "the counterexample needs a particular order of fitness values", "anchors": ["optlib/src/genetic/selection/mod.rs: kill_worst"]}
{"id": "C17", "title": "Selection only ever kills", "statement": "The library's selections never change chromosomes or fitness, never reorder, add, drop or revive individuals, nor touch the generation number or the remembered best/worst; they only clear alive flags.", "quantifier": "all populations, all library selections in any order", "why_tests_cant": "all populations", "anchors": ["optlib/src/genetic/selection/mod.rs", "optlib/src/genetic/selection/vec_float.rs"]}
{"id": "C18", "title": "kill_worst corner cases", "statement": "kill_worst panics on an empty population; with count = 0 on a non-empty population it still kills the individual that the scan ends on; LimitPopulation never reaches either case and never panics.", "quantifier": "all populations", "why_tests_cant": "corner cases of a public function", "anchors": ["optlib/src/genetic/selection/mod.rs: kill_worst, LimitPopulation"]}
{"id": "C19", "title": "RandomPairing returns valid pairs", "statement": "On a non-empty population RandomPairing returns exactly floor(len/2) families, each of exactly two valid indices.", "quantifier": "all populations, every random sequence", "why_tests_cant": "random draws", "anchors": ["optlib/src/genetic/pairing/mod.rs: RandomPairing"]}
{"id": "C20", "title": "Tournament winners beat their challengers", "statement": "On a non-empty population Tournament returns families_count families of partners_count valid indices; each selected individual is one of the rounds_count + 1 drawn ones and, unless the first drawn one has NaN fitness, none of the drawn ones has strictly smaller fitness; a NaN first pick is always selected. Tournament::new(n) makes n pairs with one round each; partners_count and rounds_count each change one of the two numbers, in any order.", "quantifier": "all populations, parameters, every random sequence", "why_tests_cant": "random draws, NaN corner case", "anchors": ["optlib/src/genetic/pairing/mod.rs: Tournament"]}
{"id": "C21", "title": "Pairing an extinct population panics", "statement": "With an empty population both RandomPairing and Tournament panic, so a genetic run whose population dies out and whose stop checker does not stop panics instead of returning.", "quantifier": "all optimizers using the library pairings", "why_tests_cant": "needs an extinction event", "anchors": ["optlib/src/genetic/pairing/mod.rs", "optlib/src/genetic/mod.rs: next_iterations"]}
{"id": "C22", "title": "Every individual's fitness is what the goal returned for its chromosomes", "statement": "At every point of every history of API calls, the fitness of each individual in the population, and of the remembered best and worst, is the value returned by an actual call of the goal on exactly its chromosomes; so with a pure goal function the returned pair satisfies value = goal(point).", "quantifier": "all components, all call histories, all iterations", "why_tests_cant": "all histories of an arbitrary plug-in system", "anchors": ["optlib/src/genetic/mod.rs: Population::push, append, next_iterations, find_min"]}
{"id": "C23", "title": "The reported best and worst are extremal in the generation", "statement": "After each generation with survivors the reported best is a survivor and no survivor with a non-NaN fitness is strictly better (a NaN best is reported only when all are NaN); symmetrically for the worst.", "quantifier": "all populations and goal values including NaN and infinities", "why_tests_cant": "NaN comparator corner cases, all populations", "anchors": ["optlib/src/genetic/mod.rs: update_best_worst_individuals, individuals_min_cmp, individuals_max_cmp"]}
{"id": "C24", "title": "MaxIterations bounds both optimizers exactly", "statement": "With MaxIterations(n), find_min of either optimizer performs exactly n iterations and terminates (if no component panics); next_iterations continues until the counter reaches n and does nothing if it is already there.", "quantifier": "all n, all components", "why_tests_cant": "for every n and every component behaviour", "anchors": ["optlib/src/tools/stopchecker/mod.rs: MaxIterations", "optlib/src/genetic/mod.rs: next_iterations", "optlib/src/particleswarm/mod.rs: next_iterations"]}
{"id": "C25", "title": "find_min starts afresh", "statement": "find_min's behaviour (result, callbacks, final population or swarm) does not depend on the population/swarm, best/worst or iteration number left by earlier calls, only on the state of the plugged-in components.", "quantifier": "all earlier states", "why_tests_cant": "all histories", "anchors": ["optlib/src/genetic/mod.rs: find_min, reset", "optlib/src/particleswarm/mod.rs: renew_swarm, find_min"]}
{"id": "C26", "title": "The result is the state's best solution", "statement": "find_min and next_iterations return exactly the best solution of the final state, the one passed to the loggers' finish. A genetic run that stops before its first generation returns None even though individuals exist; after at least one generation with survivors it returns Some.", "quantifier": "all runs", "why_tests_cant": "all runs", "anchors": ["optlib/src/genetic/mod.rs: next_iterations, get_best_solution", "optlib/src/particleswarm/mod.rs: next_iterations"]}
{"id": "C27", "title": "Goal calls are exactly accounted for", "statement": "A genetic run calls the goal once for each initial chromosome and once for each child that survives pre-birth, in order, and never otherwise; a swarm run with N particles and k iterations calls it exactly N*(k+1) times.", "quantifier": "all runs", "why_tests_cant": "all runs and all components", "anchors": ["optlib/src/genetic/mod.rs: append", "optlib/src/particleswarm/mod.rs: renew_swarm, next_iterations"]}
{"id": "C28", "title": "Genetic search stays inside the intervals", "statement": "With RandomCreator and the pre-birth CheckChromoInterval on the same intervals, every individual ever in the population, and the returned solution, has all genes finite and inside the intervals, whatever pairing, crossing, mutation and selection do.", "quantifier": "all runs, all pairing/cross/mutation/selection components", "why_tests_cant": "all runs", "anchors": ["optlib/src/genetic/pre_birth/vec_float.rs", "optlib/src/genetic/creation/vec_float.rs", "optlib/src/genetic/mod.rs"]}
{"id": "C29", "title": "The genetic best never gets worse", "statement": "From one generation to the next the reported best fitness does not increase when selection keeps the best individual. (With LimitPopulation this is false because of kill_worst: there is a run whose best fitness increases. It holds for selections that never kill a finite-fitness individual, such as KillFitnessNaN alone.)", "quantifier": "all runs", "why_tests_cant": "needs a specific fitness order to fail", "anchors": ["optlib/src/genetic/mod.rs: next_iterations", "optlib/src/genetic/selection/mod.rs: kill_worst"]}
{"id": "C30", "title": "Population size stays bounded over a whole run", "statement": "With selections [KillFitnessNaN, LimitPopulation(n)], n >= 1, every generation after the first has at most n individuals and the first has at most n + 1.", "quantifier": "all runs, all goals", "why_tests_cant": "all histories", "anchors": ["optlib/src/genetic/selection/mod.rs", "optlib/src/genetic/mod.rs: next_iterations"]}
{"id": "C31", "title": "Logger protocol", "statement": "For each optimizer, one find_min calls for every logger, in registration order: start once, resume once, next_iteration once after each iteration with the iteration number just completed, finish once; next_iterations does the same without start. Every finish therefore follows a resume.", "quantifier": "all runs, any number of loggers", "why_tests_cant": "all runs", "anchors": ["optlib/src/genetic/mod.rs: find_min, next_iterations", "optlib/src/particleswarm/mod.rs: find_min, next_iterations", "optlib/src/tools/logging/mod.rs: Logger"]}
{"id": "C32", "title": "Children pipeline", "statement": "In each generation the children entering the population are obtained from the parents selected by pairing by cross, then mutation of every child, then the pre-birth filters in registration order; they are appended after the existing individuals, in order, alive, and then all selections run in registration order and the dead are removed.", "quantifier": "all components", "why_tests_cant": "arbitrary plug-ins", "anchors": ["optlib/src/genetic/mod.rs: run_pairing, next_iterations"]}
{"id": "C33", "title": "Threshold", "statement": "Threshold(t) stops iff there is a best solution and its goal value is <= t; a NaN goal (or NaN threshold) never stops it.", "quantifier": "all states", "why_tests_cant": "float corner cases", "anchors": ["optlib/src/tools/stopchecker/mod.rs: Threshold"]}
{"id": "C34", "title": "GoalNotChange stops after a stagnation", "statement": "Consulted once per iteration in one run, GoalNotChange(m, d) stops at an iteration exactly when more than m iterations have passed since the goal last differed by more than d from its previous recorded value (recorded at that iteration; initially f64::MAX at iteration 0); in particular it never stops in the first m iterations, and if d is not negative and from some point on the goal stays constant it stops (for a negative d it does not). It never underflows within a single run.", "quantifier": "all goal sequences, m, d", "why_tests_cant": "all infinite goal sequences", "anchors": ["optlib/src/tools/stopchecker/mod.rs: GoalNotChange"]}
{"id": "C35", "title": "When a GoalNotChange object can be used for a second run", "statement": "A GoalNotChange(m, d) object that has already served a run answers the first consultation of the next run, and goes on, exactly as a new one if the consulted goal is more than d away from the last recorded value (and from f64::MAX). Otherwise, if the iteration number is below the recorded one, the subtraction underflows: with overflow checks the call panics, without them the answer compares m with a number near 2^64. There are optimizers whose second find_min panics, or stops before its first iteration, for this reason.", "quantifier": "all checker states reachable by one run", "why_tests_cant": "needs two runs ending at nearby values", "anchors": ["optlib/src/tools/stopchecker/mod.rs: GoalNotChange::can_stop"]}
{"id": "C36", "title": "Composite checkers", "statement": "CompositeAny stops iff some member does and CompositeAll iff all do, on the members' own answers; members are consulted in order and not consulted after the first true (resp. false), so their internal state is not updated. The constructors panic exactly on an empty list.", "quantifier": "all member lists, all members", "why_tests_cant": "arbitrary stateful members", "anchors": ["optlib/src/tools/stopchecker/mod.rs: CompositeAny, CompositeAll"]}
{"id": "C37", "title": "Any composite with MaxIterations terminates", "statement": "A run whose stop checker is a CompositeAny containing MaxIterations(n) and whose components do not panic finishes after at most n iterations.", "quantifier": "all other members, all runs", "why_tests_cant": "termination for all runs", "anchors": ["optlib/src/tools/stopchecker/mod.rs: CompositeAny, MaxIterations"]}
{"id": "C38", "title": "The swarm's float comparison is a total preorder", "statement": "The order used for particle values is total, reflexive and transitive on all f64 values: finite values are ordered numerically (-0 equals +0), all non-finite values (NaN, +inf, -inf) are equivalent and worse than every finite one.", "quantifier": "all pairs/triples of f64", "why_tests_cant": "2^192 triples", "anchors": ["optlib/src/particleswarm/mod.rs: compare_floats"]}
{"id": "C39", "title": "The swarm's best never gets worse and is the best ever evaluated", "statement": "Throughout find_min and any following next_iterations, the best solution never gets worse, was actually evaluated in this run, and no finite goal value returned in this run is smaller than it.", "quantifier": "all runs, all goals, all velocity calculators and hooks", "why_tests_cant": "all runs", "anchors": ["optlib/src/particleswarm/mod.rs: update_best_particle, replace_particles, next_iterations"]}
{"id": "C40", "title": "Personal best and worst are extremes of the particle's own history", "statement": "At every moment each particle's personal best (worst) value is the minimum (maximum) over all values it has had in this run in the swarm's order, and the stored coordinates are those where it was evaluated.", "quantifier": "all runs", "why_tests_cant": "all histories", "anchors": ["optlib/src/particleswarm/mod.rs: Particle::move_to"]}
{"id": "C41", "title": "MoveToBoundary confines the swarm", "statement": "With MoveToBoundary on finite increasing intervals as the last hook, every coordinate of every particle at every moment (initial swarm included), and the returned solution, lies in its interval, even if velocities are infinite or NaN. It panics iff the dimensions differ.", "quantifier": "all runs, all velocity calculators", "why_tests_cant": "all runs, float corner cases", "anchors": ["optlib/src/particleswarm/postmove/mod.rs: MoveToBoundary", "optlib/src/particleswarm/mod.rs"]}
{"id": "C42", "title": "RandomTeleport", "statement": "RandomTeleport either leaves the coordinates unchanged or replaces all of them by values inside the intervals; with probability 0 it never moves and with probability 1 it always does. The constructor rejects probabilities outside [0, 1] and NaN.", "quantifier": "all coordinates, probabilities, random sequences", "why_tests_cant": "random draws", "anchors": ["optlib/src/particleswarm/postmove/mod.rs: RandomTeleport"]}
{"id": "C43", "title": "MaxVelocityDimensions clamps every component", "statement": "Each non-NaN component of the result has absolute value at most |max_i| (for a limit that is a number) and keeps its sign, and is unchanged if already within the limit; a NaN component or a NaN limit gives NaN. It panics iff the lengths differ.", "quantifier": "all vectors and limits incl. infinities and NaN", "why_tests_cant": "float corner cases", "anchors": ["optlib/src/particleswarm/postvelocitycalc/mod.rs: MaxVelocityDimensions"]}
{"id": "C44", "title": "MaxVelocityAbs limits the speed", "statement": "For a limit that is not negative: in exact arithmetic the corrected velocity has norm min(norm, max) and the same direction. In floating point a velocity whose computed norm is not above the limit is returned unchanged, the dimension never changes, no component changes sign, and none is moved away from zero unless its product with the limit underflows, and then it at most doubles; an overflowing norm gives a zero velocity or NaN. If the square of the limit m does not underflow and the computed norm is finite, the true norm of the result is at most m (1 + 4 (n + 2) u), with n components (n up to 1/(10 u) - 10) and unit roundoff u (2^-53 for f64); when the vector is shortened its norm is m and each component is m times the direction, up to m 4 (n + 2) u and m 2 (n + 4) u.", "quantifier": "all vectors and limits", "why_tests_cant": "rounding, overflow", "anchors": ["optlib/src/particleswarm/postvelocitycalc/mod.rs: MaxVelocityAbs"]}
{"id": "C45", "title": "Velocity formulas", "statement": "The four velocity calculators compute, component by component, the documented formulas with fresh random factors in [0,1] per component, one velocity component per coordinate, and do not panic when the vectors have one length and the swarm has a best (and worst) particle; ConstInertia(1) makes the inertia calculator agree with the classic one, and a particle sitting on its personal and the global best keeps its velocity (classic) or has it multiplied by the constriction factor (canonical).", "quantifier": "all swarms, particles, coefficients, random sequences", "why_tests_cant": "random draws, all inputs", "anchors": ["optlib/src/particleswarm/velocitycalc/mod.rs: ClassicVelocityCalculator, CanonicalVelocityCalculator, NegativeReinforcement, InertiaVelocityCalculator"]}
{"id": "C46", "title": "LinearInertia decreases from w_max to w_min", "statement": "For finite w_min <= w_max with a finite difference and t_max > 0 the weight is w_max at iteration 0, never increases with the iteration number (rounding and overflow included) and never exceeds w_max; in exact arithmetic it is w_min at t_max, stays within [w_min, w_max] up to t_max and keeps falling below w_min after it, while with rounding it can be below w_min, even negative, already at t_max; t_max = 0 gives NaN at iteration 0 and, if w_min < w_max, minus infinity afterwards.", "quantifier": "all parameters and iterations", "why_tests_cant": "all iterations, rounding", "anchors": ["optlib/src/particleswarm/velocitycalc/mod.rs: LinearInertia"]}
{"id": "C47", "title": "CanonicalVelocityCalculator's constriction factor", "statement": "The constructor accepts exactly phi_p + phi_g > 4 and 0 < alpha < 1, and then the constriction factor xi is between 0 and alpha (hence < 1), rounding included.", "quantifier": "all parameters in every float format", "why_tests_cant": "all floats", "anchors": ["optlib/src/particleswarm/velocitycalc/mod.rs: CanonicalVelocityCalculator::new"]}
{"id": "C48", "title": "Swarm shape is invariant and the library swarm never panics", "statement": "With the library initializers, calculators and hooks set up for one dimension and particle count, no run panics, the number of particles and the dimension of every coordinate/velocity/personal best vector never change.", "quantifier": "all runs of the library components", "why_tests_cant": "all runs", "anchors": ["optlib/src/particleswarm/mod.rs", "optlib/src/particleswarm/velocitycalc/mod.rs"]}
{"id": "C49", "title": "Empty swarm and mismatched initializers", "statement": "A swarm with no particles yields None and never calls the goal; initializers returning different numbers of vectors make find_min panic before a hook or the goal is called, and the panic leaves the swarm as it was.", "quantifier": "all such configurations", "why_tests_cant": "corner cases", "anchors": ["optlib/src/particleswarm/mod.rs: renew_swarm, find_min"]}
{"id": "C50", "title": "StatisticsLogger records the run", "statement": "For a fresh Statistics and any sequence of find_min/next_iterations calls that begins with find_min: one convergence row per find_min, one result per find_min or next_iterations call, each row holds in order the best solution after each iteration since that find_min; each result equals the returned value. get_run_count is the number of results, not of rows.", "quantifier": "all runs and call sequences", "why_tests_cant": "all histories", "anchors": ["optlib/src/tools/statistics/mod.rs: StatisticsLogger, Statistics"]}
{"id": "C51", "title": "next_iterations before find_min: StatisticsLogger survives exactly if no iteration is done", "statement": "Attach a StatisticsLogger that was never started to any optimizer, at any position, and make next_iterations the first call. If the call returns without the logger, then with it the call returns if and only if no iteration is done; otherwise it panics.", "quantifier": "all optimizers with a fresh StatisticsLogger", "why_tests_cant": "unusual call order", "anchors": ["optlib/src/tools/statistics/mod.rs: add_convergence"]}
{"id": "C52", "title": "GoalCalcStatistics counts goal calls exactly", "statement": "Wrapping a goal in GoalCalcStatistics does not change any returned value, and increases the last counter by exactly the number of goal calls (creating a first counter if there is none), as long as the counter stays below 2^64.", "quantifier": "all goals, all call sequences", "why_tests_cant": "all histories", "anchors": ["optlib/src/tools/statistics/mod.rs: GoalCalcStatistics, CallCountData"]}
{"id": "C53", "title": "CallCountData bookkeeping", "statement": "After any sequence of next_run/increment/add, get_call_count lists the totals of each run in order, calls before the first next_run opening an implicit first run; the average is None iff there are no runs, otherwise total/runs; unite concatenates.", "quantifier": "all operation sequences", "why_tests_cant": "all histories", "anchors": ["optlib/src/tools/statistics/mod.rs: CallCountData"]}
{"id": "C54", "title": "Average goal", "statement": "get_average_goal is None iff there is no successful solution; otherwise it is the mean of the goals of the successful ones, ignoring failures; a single success is returned exactly.", "quantifier": "all result lists", "why_tests_cant": "all lists", "anchors": ["optlib/src/tools/statistics/mod.rs: get_average_goal"]}
{"id": "C55", "title": "Standard deviation of the goal", "statement": "get_standard_deviation_goal is None iff fewer than two solutions are successful; otherwise it is the sample standard deviation (n-1) of the successful goals; it is never negative and in exact arithmetic zero iff all goals are equal.", "quantifier": "all result lists", "why_tests_cant": "all lists", "anchors": ["optlib/src/tools/statistics/mod.rs: get_standard_deviation_goal"]}
{"id": "C56", "title": "Average and deviation of solutions", "statement": "get_average and get_standard_deviation apply the mean / sample deviation componentwise to the successful solutions and are None in exactly the same cases as their goal versions; they panic if two successful solutions have different lengths.", "quantifier": "all result lists", "why_tests_cant": "all lists", "anchors": ["optlib/src/tools/statistics/mod.rs: get_average, get_standard_deviation, vectorize"]}
{"id": "C57", "title": "Average convergence", "statement": "get_average_convergence has as many entries as the shortest run (0 if there are no runs) and entry i is the mean over the runs that have a solution at iteration i. The documentation says an entry is None if any run has None there; the code gives None only if all do.", "quantifier": "all convergence tables", "why_tests_cant": "all tables", "anchors": ["optlib/src/tools/statistics/mod.rs: get_average_convergence, get_min_iterations"]}
{"id": "C58", "title": "Success rate", "statement": "get_success_rate is None iff there are no runs; otherwise it is the number of successful solutions accepted by the predicate over the number of all runs (failures included), and it lies in [0,1], rounding included.", "quantifier": "all result lists and predicates", "why_tests_cant": "all lists", "anchors": ["optlib/src/tools/statistics/mod.rs: get_success_rate"]}
{"id": "C59", "title": "Success predicates", "statement": "get_predicate_success_goal accepts iff |goal - expected| < delta and never accepts NaN; get_predicate_success_vec_solution rejects a solution with a coordinate farther than delta from the expected one. (The vector predicate accepts NaN coordinates and solutions of the wrong length whose common prefix matches.)", "quantifier": "all solutions", "why_tests_cant": "NaN and length corner cases", "anchors": ["optlib/src/tools/statistics/mod.rs: get_predicate_success_goal, get_predicate_success_vec_solution"]}
{"id": "C60", "title": "unite merges statistics losslessly and in any order", "statement": "Statistics::unite and CallCountData::unite concatenate runs, are associative with the fresh value as unit; hence merging the same parts in any order gives the same run count, success rate, call totals and average call count, and (in exact arithmetic) the same averages.", "quantifier": "all statistics, all merge orders", "why_tests_cant": "all thread interleavings of the merging examples", "anchors": ["optlib/src/tools/statistics/mod.rs: unite"]}
{"id": "C61", "title": "Paraboloid", "statement": "paraboloid is never negative (NaN aside, rounding included), and in exact arithmetic is zero exactly at (1, 2, ..., n); at that point the floating-point result is exactly zero; a finite floating-point value differs from the exact sum of squares by at most 1.2 (n + 3) u times that sum plus 10/9 n times half the smallest number, with n components and unit roundoff u, for n up to 1/(10 u) - 10.", "quantifier": "all vectors of all lengths", "why_tests_cant": "all vectors", "anchors": ["optlib-testfunc/src/lib.rs: paraboloid"]}
{"id": "C62", "title": "Rosenbrock", "statement": "rosenbrock is never negative (NaN aside, rounding included), is exactly zero at (1,...,1), and in exact arithmetic for n >= 2 is zero only there; the empty vector panics and a one-element vector always gives zero. In f32 and f64, with u the unit roundoff, tau half the smallest positive number and (n+10)u <= 1/20, a finite result differs from the exact value E at the same point by at most 5/2 (n+1) u E + 5/2 sum of 100 g (|x1 - x0^2| + g) + 120 n tau, where g = u x0^2 + tau.", "quantifier": "all vectors of all lengths", "why_tests_cant": "all vectors", "anchors": ["optlib-testfunc/src/lib.rs: rosenbrock"]}
{"id": "C63", "title": "Rastrigin", "statement": "In exact arithmetic rastrigin is never negative and is zero exactly at the origin. In f32 and f64, with a sine and cosine that are accurate to eps: a finite result differs from the exact value by at most 9/4 (n+2) u sum(x^2+10) + 23/2 sum(eps + 14 u |x| + tau) + 5/2 (n+1) tau, and is therefore not below minus that bound; if the platform's cos(0) is 1, the result at the origin is exactly zero for up to 2^20 components.", "quantifier": "all real vectors; all float vectors with a finite result, all platforms' sine and cosine of given accuracy", "why_tests_cant": "all vectors", "anchors": ["optlib-testfunc/src/lib.rs: rastrigin"]}
{"id": "C64", "title": "Schwefel", "statement": "In exact arithmetic schwefel is non-negative on [-500, 500]^n, i.e. its documented minimum value 0 is a lower bound there, and is within 1.3e-5*n of 0 at the documented point; outside the box it is unbounded below. In f32 and f64, with a sine that is accurate to eps: a finite result differs from the exact value by at most 6/5 (n+3) u (419 n + sum|x|) + 11/10 sum |x| (eps + u sqrt|x| + tau) + 11/10 (n+1) tau, which gives a lower bound near zero in the box; the assertion in its documentation (four times 420.9687 in f64 gives a value below 1e-4 in absolute value) holds with any sine accurate to 1e-8.", "quantifier": "all real vectors (in the box for the lower bound); all float vectors with a finite result, all platforms' sine and cosine of given accuracy", "why_tests_cant": "all vectors", "anchors": ["optlib-testfunc/src/lib.rs: schwefel"]}
{"id": "C65", "title": "Text loggers", "statement": "VerboseLogger writes exactly one line per iteration that has a best solution and nothing else; ResultOnlyLogger writes only at finish, the solution or 'Solution not found' followed by the iteration count; TimeLogger never panics in an optimizer because resume precedes finish, and writes one line per finish.", "quantifier": "all runs", "why_tests_cant": "all runs", "anchors": ["optlib/src/tools/logging/mod.rs"]}
{"id": "C66", "title": "Tournament, crossing and mutation preserve the chromosome length", "statement": "If all chromosomes of the initial population have n genes and the library VecCrossAllGenes (over a one-child single cross) and VecMutation are used, every individual in every generation has n genes, and no gene-count assertion can fail.", "quantifier": "all runs", "why_tests_cant": "all runs", "anchors": ["optlib/src/genetic/cross/mod.rs", "optlib/src/genetic/mutation/mod.rs", "optlib/src/genetic/mod.rs"]}
{"id": "C67", "title": "Reported iteration number", "statement": "The iteration number visible to stop checkers and loggers is 0 at start, increases by exactly one per iteration, and keeps counting across next_iterations calls; it is reset only by find_min.", "quantifier": "all call histories", "why_tests_cant": "all histories", "anchors": ["optlib/src/genetic/mod.rs: next_iteration, reset", "optlib/src/particleswarm/mod.rs: next_iteration, reset"]}
{"id": "C68", "title": "Setters take effect only from the next use and change nothing else", "statement": "Replacing a component (stop checker, loggers, pairing, cross, mutation, selections, pre-births, hooks) leaves the population or swarm, the best solution and the iteration number unchanged, and later calls behave as for an optimizer built with the new component in that state.", "quantifier": "all states and components", "why_tests_cant": "all histories", "anchors": ["optlib/src/genetic/mod.rs: set_*", "optlib/src/particleswarm/mod.rs: set_*"]}
{"id": "C69", "title": "Particle update pipeline", "statement": "In each swarm iteration every particle is updated exactly once, in order: the velocity calculator sees the swarm (with the best, worst and iteration number of the previous iteration) and the particle; its answer passes through the velocity hooks in registration order; the new coordinates are the old ones plus the new velocity, corrected by the post-move hooks in registration order; the goal is called once on the result; the personal best and worst are updated; only after all particles have moved are the best and worst of the swarm updated and the loggers called.", "quantifier": "all components, all points of all call histories", "why_tests_cant": "a test fixes the components and the number of particles; the order of effects must hold for every plugged-in calculator, hook and goal", "anchors": ["optlib/src/particleswarm/mod.rs: ParticleSwarmOptimizer::next_iterations, Particle::move_to"]}
{"id": "C70", "title": "A logger that does not fail changes nothing", "statement": "Attaching one more logger to an optimizer, at any position among its loggers, does not change what the optimizer does: every call returns the same value or panics exactly when it did before, all other components are called in the same order with the same arguments, and the population or swarm is the same at the end, provided the logger's callbacks do not fail in the order start, resume, next_iteration, finish in which an optimizer calls them. StatisticsLogger (after the first find_min), VerboseLogger, ResultOnlyLogger and TimeLogger (with a writer that does not fail) are such loggers.", "quantifier": "all optimizers, loggers, positions, and histories of find_min and next_iterations", "why_tests_cant": "a test can only compare finitely many runs of particular components; the claim compares two programs on every history", "anchors": ["optlib/src/tools/logging/mod.rs: Logger", "optlib/src/genetic/mod.rs: GeneticOptimizer::next_iterations", "optlib/src/particleswarm/mod.rs: ParticleSwarmOptimizer::next_iterations", "optlib/src/tools/statistics/mod.rs: StatisticsLogger"]}
{"id": "C71", "title": "A genetic optimizer put together from the library does not panic and find_min returns", "statement": "Take a genetic optimizer with RandomCreator for at least one individual in finite increasing intervals, RandomPairing or Tournament of pairs, VecCrossAllGenes over any of the library's gene crossings, VecMutation of BitwiseMutation, the pre-birth interval check, KillFitnessNaN followed by library selections that leave somebody alive, library stop checkers and text loggers, and a goal with finite values in the intervals. No history of calls in which next_iterations does not come before the first find_min panics (GoalNotChange in an unchecked build). If the stop checker stops from iteration m on, but not before the first generation, find_min returns after 1 to m generations a point of the intervals with its finite goal value. The example programs genetic-paraboloid, genetic-rastrigin, genetic-schwefel (and its iterative version) do so with every random generator; genetic-rosenbrock, which has no iteration limit, never panics, in checked and unchecked builds, and if it ends it returns such a point too. The conditions are needed: without finite goal values the population dies out and the next generation panics, a stop before the first generation returns nothing, next_iterations before find_min panics.", "quantifier": "all such optimizers, sizes, intervals, random generators, platforms, worlds and call histories; all points of their executions", "why_tests_cant": "a test runs finitely many random streams; a population can die out under a stream no test has drawn", "anchors": ["optlib/src/genetic/mod.rs: GeneticOptimizer", "optlib/examples/genetic-paraboloid.rs", "optlib/examples/genetic-rastrigin.rs", "optlib/examples/genetic-rosenbrock.rs", "optlib/examples/genetic-schwefel.rs", "optlib/examples/genetic-schwefel-iterative.rs"]}
{"id": "C72", "title": "The test functions are finite where they are used", "statement": "For f32 and f64, at every point with at most 2^20 coordinates, each finite and between -2^20 and 2^20, paraboloid, schwefel, rastrigin and (for at least one coordinate) rosenbrock return finite values, with explicit bounds that grow linearly in the number of coordinates; schwefel and rastrigin provided that the platform's sine and cosine map finite numbers into [-1, 1]. On coordinates between -2 and 2, rosenbrock of d of them (d at most 4000) is at most 3609 * (d - 1) in absolute value, and this is reached. Some bound is needed: in f32, rosenbrock overflows at the finite point (2^40, 0).", "quantifier": "all points in that range, both float formats, both build profiles, every sine and cosine with that contract", "why_tests_cant": "rounding and overflow depend on all intermediate results; there are astronomically many points", "anchors": ["optlib-testfunc/src/lib.rs: paraboloid, schwefel, rastrigin, rosenbrock"]}
{"id": "C73", "title": "GoalNotChange ends every run of a swarm, and of a genetic optimizer that keeps its best", "statement": "Let a particle swarm with at least one particle have a GoalNotChange(m, d) as its stop checker, or as any member of a CompositeAny, whose d is not negative. Then find_min and a resumed next_iterations end by themselves, whatever the goal function returns (also infinities and NaN). If the goal values lie between lo and hi and d is positive, find_min with a new GoalNotChange does at most (floor((hi - lo) / d) + 2) * (m + 1) iterations. The same holds for find_min of a genetic optimizer (with one generation more) whose selections keep the best individual, as KillFitnessNaN does, whose creator creates somebody, and whose goal is finite on a set of points that creation, crossing, mutation and pre-birth do not leave. The conditions are needed: without particles, with a negative d, and for a genetic optimizer with LimitPopulation (which may kill the best), there are runs that never end.", "quantifier": "all swarms and genetic optimizers, goal functions, operators, hooks, loggers, random generators, m and d, build profiles, worlds", "why_tests_cant": "termination for all goal functions and random streams cannot be observed by running finitely many of them", "anchors": ["optlib/src/tools/stopchecker/mod.rs: GoalNotChange, CompositeAny", "optlib/src/particleswarm/mod.rs: ParticleSwarmOptimizer::find_min, next_iterations", "optlib/src/genetic/mod.rs: GeneticOptimizer::find_min", "optlib/src/genetic/selection/mod.rs: KillFitnessNaN, LimitPopulation"]}
{"id": "C74", "title": "Overflow checks make no difference to a run with a new GoalNotChange", "statement": "Let the stop checker of a swarm or of a genetic optimizer be a GoalNotChange that has just been made, alone or nested in CompositeAny and CompositeAll among other checkers, and let nothing else touch its fields. Then a history that begins with find_min and goes on with any number of next_iterations has the same outcome (results, final swarm or population, trace, or panic) in a build with overflow checks and in one without. With any number of GoalNotChange objects, new or used, and any history of calls, a checked build does the same as an unchecked one unless it panics because of an overflow; it does nothing else of its own. A second find_min with the same GoalNotChange can indeed panic in a checked build and not in an unchecked one.", "quantifier": "all optimizers, goal functions, operators, nested stop checkers, worlds, lengths of the history", "why_tests_cant": "unit tests run in one build profile; whether a subtraction can wrap depends on the whole history of best values", "anchors": ["optlib/src/tools/stopchecker/mod.rs: GoalNotChange::can_stop, CompositeAny, CompositeAll", "optlib/src/particleswarm/mod.rs: find_min, next_iterations", "optlib/src/genetic/mod.rs: find_min, next_iterations"]}
{"id": "C75", "title": "A swarm put together from the library returns the best of the points it evaluated, all of them in the box", "statement": "Take a particle swarm of n > 0 particles put together from the library's initializers, velocity calculators, post-velocity hooks, loggers and stop checkers, with MoveToBoundary on finite increasing intervals as its last post-move hook, a goal that is finite in the intervals and a stop checker that stops from iteration m on. Then find_min, and next_iterations after any history with a find_min, return, after at most m iterations, a point whose goal value is the least of all points evaluated since the particles were created; all these points lie in the intervals, with the finite values of the goal, and there are exactly n for the initial particles and n for each iteration. The programs particleswarm-paraboloid, particleswarm-rastrigin, particleswarm-rosenbrock and particleswarm-schwefel do so with every random generator, in checked and unchecked builds; particleswarm-schwefel-iterative returns after exactly 50 iterations and again after exactly 150. If instead the stop checker contains a new GoalNotChange that must consent, with a positive delta, and the goal stays between two finite values in the intervals, the swarm stops by itself, after a number of iterations that depends only on these values and the settings of GoalNotChange. Without particles nothing is returned.", "quantifier": "all such swarms, sizes, dimensions, intervals, goals, random generators, platforms, worlds and call histories", "why_tests_cant": "a test runs finitely many random streams of one goal function; the claim is about each evaluation in each run", "anchors": ["optlib/src/particleswarm/mod.rs: ParticleSwarmOptimizer", "optlib/src/particleswarm/postmove/mod.rs: MoveToBoundary", "optlib/examples/particleswarm-paraboloid.rs", "optlib/examples/particleswarm-rastrigin.rs", "optlib/examples/particleswarm-rosenbrock.rs", "optlib/examples/particleswarm-schwefel.rs", "optlib/examples/particleswarm-schwefel-iterative.rs"]}
{"id": "C76", "title": "The statistics programs lose and duplicate no run, whatever the scheduler does, and wait forever if a run panics", "statement": "The seven statistics programs start one thread per processor, each of which makes run_count runs of an optimizer and sends its united data to the main thread. For every schedule: when the main thread has received everything, its results, convergence tables and call counts are those of run_count runs of every thread, each thread's runs as if it were alone and in their order, one thread after another in some order of the threads; each order of the threads can occur. Neither recv().unwrap() nor send().unwrap() panics. An execution has at most cpu * (run_count + 3) + 2 steps. If each run ends and none panics, the program stops only after the main thread has received everything, after exactly that many steps. If a run panics, the main thread never gets to the end and does not fail either: it waits forever, since it keeps a sender of its own.", "quantifier": "all numbers of processors and of runs, optimizers, results of the runs and schedules of the threads", "why_tests_cant": "a test sees one schedule on one machine; the claim is about each interleaving", "anchors": ["optlib/examples/particleswarm-schwefel-statistics.rs: main", "optlib/examples/particleswarm-schwefel-statistics-full.rs: main", "optlib/examples/particleswarm-schwefel-statistics-inertia.rs: main", "optlib/examples/particleswarm-rastrigin-statistics-inertia.rs: main", "optlib/examples/particleswarm-rosenbrock-statistics.rs: main", "optlib/examples/genetic-schwefel-statistics.rs: main", "optlib/examples/genetic-rosenbrock-statistics.rs: main", "optlib/src/tools/statistics/mod.rs: Statistics::unite, CallCountData::unite"]}
{"id": "C77", "title": "Each run of a statistics program leaves a faithful record", "statement": "One run of each of the statistics programs particleswarm-schwefel-statistics, -schwefel-statistics-full, -schwefel-statistics-inertia, -rastrigin-statistics-inertia and -rosenbrock-statistics, with any random numbers, in a checked or unchecked build, ends without panic after at most 3000, 1000, 400, 400 and 10^17 iterations, and records exactly one result, one convergence row and one call count. There is a list of points, all of them in the program's box, with their goal values, n for the initial particles and n for each entry of the row, such that the call count is their number, the result is the best of them, entry i of the row is the best of the points up to the end of iteration i + 1, and the last entry is the result. One run of genetic-schwefel-statistics ends without panic after exactly 3000 generations and one of genetic-rosenbrock-statistics does not panic within 2^55 generations; a run that ends records one result, one row and one call count, and there is a list of points, all of them in the box, with their finite goal values, 100 (700) for the first population and at most 50 (350) for each entry of the row, such that the call count is their number, entry i of the row is one of the points up to the end of generation i + 1 and the last entry is the result.", "quantifier": "all platforms, random generators, seeds, build profiles", "why_tests_cant": "the programs are random and have no tests; the claim is about each run", "anchors": ["optlib/examples/particleswarm-schwefel-statistics.rs: create_optimizer, main", "optlib/examples/particleswarm-schwefel-statistics-full.rs: create_optimizer, main", "optlib/examples/particleswarm-schwefel-statistics-inertia.rs: create_optimizer, main", "optlib/examples/particleswarm-rastrigin-statistics-inertia.rs: create_optimizer, main", "optlib/examples/particleswarm-rosenbrock-statistics.rs: create_optimizer, main", "optlib/examples/genetic-schwefel-statistics.rs: create_optimizer, main", "optlib/examples/genetic-rosenbrock-statistics.rs: create_optimizer, main", "optlib/src/tools/statistics/mod.rs: StatisticsLogger, GoalCalcStatistics"]}
{"id": "C78", "title": "The statistics programs end and report on all their runs", "statement": "On a machine with 1 to 1000 processors (1 to 100 for genetic-rosenbrock-statistics), whatever the scheduler and the random generator do, each of the statistics programs receives the data of cpu * (1000 / cpu) runs (cpu * (100 / cpu)), all of them with a faithful record (C77), after a bounded number of steps and without a panic in any thread. For genetic-rosenbrock-statistics this is under the condition that each single run ends within 2^48 generations. Then the report is made without panic: all results are listed, the averaged convergence is as long as the shortest row and has a value everywhere, the run count is that number, the success rate is the number of results within delta of the valid answer by the number of runs and lies in 0..1, the standard deviation is not negative, and the call count is the sum of the counters by the number of runs. (For particleswarm-rosenbrock-statistics this is if the sum of the counters fits in a usize.) With more processors than 1000 (100) no run is made and the program panics when it prints.", "quantifier": "all numbers of processors, schedules, platforms, random generators, seeds, build profiles", "why_tests_cant": "the programs are concurrent and random and have no tests; the claim is about each execution on each machine", "anchors": ["optlib/examples/particleswarm-schwefel-statistics.rs: main, print_solution, print_convergence_statistics, print_statistics", "optlib/examples/particleswarm-schwefel-statistics-full.rs: main, print_solution, print_convergence_statistics, print_statistics", "optlib/examples/particleswarm-schwefel-statistics-inertia.rs: main, print_solution, print_convergence_statistics, print_statistics", "optlib/examples/particleswarm-rastrigin-statistics-inertia.rs: main, print_solution, print_convergence_statistics, print_statistics", "optlib/examples/particleswarm-rosenbrock-statistics.rs: main, print_solution, print_convergence_statistics, print_statistics", "optlib/examples/genetic-schwefel-statistics.rs: main, print_solution, print_convergence_statistics, print_statistics", "optlib/examples/genetic-rosenbrock-statistics.rs: main, print_solution, print_convergence_statistics, print_statistics", "optlib/src/tools/statistics/mod.rs: get_success_rate, get_average_goal, get_standard_deviation_goal, get_average_call_count, get_average_convergence"]}
{"id": "C79", "title": "CrossMean on integer genes: the truncated mean, or an overflow", "statement": "For genes of a primitive integer type, CrossMean on two or more parents whose sums from the left stay in the range of the type returns exactly one child, sum / n with its fractional part cut off, which lies between the least and the greatest parent; this is so in particular if n times each parent is in the range. With fewer than two parents it panics. If the sum leaves the range on the way it panics in a build with overflow checks; without them the child is the truncated quotient of the sum wrapped to the type, which can lie far outside the parents (100 and 100 as i8 have the child -28). With more parents than the type can count it panics in every build.", "quantifier": "all integer types, lists of parents and build profiles", "why_tests_cant": "a test has a few parents of one type; the claim is about all values and all types", "anchors": ["optlib/src/genetic/cross/mod.rs: CrossMean"]}
{"id": "C80", "title": "Random integer genes lie in their intervals, up to 2^53", "statement": "RandomCreator::new for integer genes succeeds exactly on a positive size and a non-empty list of increasing intervals. If the bounds are not beyond 2^53 in absolute value (always so for types of at most 53 bits), create returns for every random source, without panic, exactly population_size chromosomes with one gene per interval, each within its interval; RandomVectorCreator::create_vec and the random initializers of the particle swarm alike (these panic if an interval does not increase and there is a particle), and the zero velocities are zeros in the given number and dimension. Beyond 2^53 a gene lies between the bounds rounded to f64, so it can be outside its interval (2^53 + 4 for [0, 2^53 + 3]), and for the upper bound i64::MAX create can panic.", "quantifier": "all integer types, sizes, lists of intervals, random sources", "why_tests_cant": "tests draw a few numbers from small intervals", "anchors": ["optlib/src/genetic/creation/vec_float.rs: RandomCreator::new, RandomCreator::create", "optlib/src/tools/mod.rs: RandomVectorCreator::create_vec", "optlib/src/particleswarm/initializing/mod.rs: RandomCoordinatesInitializer::get_coordinates, RandomVelocityInitializer::get_velocity, ZeroVelocityInitializer::get_velocity"]}
{"id": "C81", "title": "A genetic search over integers does not panic and stays in its intervals", "statement": "A genetic optimizer for Vec of an integer type of at least 8 bits, made of RandomCreator, RandomPairing or Tournament of pairs, VecCrossAllGenes over CrossMean, any mutation that works and stays in the intervals, KillFitnessNaN followed by LimitPopulation with positive limits, library stop checkers, working loggers and a goal with finite values in the intervals, where the bounds are not beyond 2^53 and their doubles are in the range of the type, never panics in any history in which next_iterations is not called before find_min, in a checked or unchecked build. All individuals at all times, all points passed to the goal and all points shown to loggers and stop checkers are in the intervals. If the stop checker says true from iteration m on and not before the first generation, find_min returns after at most m generations with a point of the intervals and its finite goal value.", "quantifier": "all integer types, intervals, random sources, mutations, goals, histories of calls, points in them, build profiles", "why_tests_cant": "there are no tests with integer genes; the claim is about all histories and all random numbers", "anchors": ["optlib/src/genetic/mod.rs: GeneticOptimizer::find_min, GeneticOptimizer::next_iterations", "optlib/src/genetic/cross/mod.rs: CrossMean, VecCrossAllGenes", "optlib/src/genetic/creation/vec_float.rs: RandomCreator"]}
{"id": "C82", "title": "A velocity limit holds throughout a run", "statement": "If MaxVelocityDimensions is the last velocity corrector of a swarm optimizer throughout a history of calls, then every velocity with which a particle is moved, and after each iteration the velocity of every particle, has in each coordinate an absolute value not above the absolute value of the limit (or is NaN). Without post-move hooks one iteration therefore changes a finite coordinate x to a number between x - |limit| and x + |limit| (rounded), or to NaN. The initial velocities are not corrected: before the first iteration a particle can have a velocity beyond the limit.", "quantifier": "all histories of calls, points in them, limits, other components, random sources", "why_tests_cant": "the corrector is tested on single vectors; that the optimizer runs it on every particle in every iteration before the move is a claim about all histories", "anchors": ["optlib/src/particleswarm/postvelocitycalc/mod.rs: MaxVelocityDimensions", "optlib/src/particleswarm/mod.rs: ParticleSwarmOptimizer::next_iterations"]}
{"id": "C83", "title": "Averages and rates are accurate", "statement": "A finite result of get_average_goal, of get_average_convergence (each entry), of get_average (each coordinate) and of CrossMean differs from the exact mean of the n numbers that went into it by at most ((1 + u)^(n + 1) - 1) times the mean of their absolute values plus half the smallest positive number, where u is the unit roundoff (2^-53 for f64); get_success_rate differs from the exact quotient by at most u times the quotient plus half the smallest positive number. n is assumed to be at most 1/u.", "quantifier": "all result lists, convergence tables, lists of parents, IEEE formats", "why_tests_cant": "rounding over all lists of all lengths", "anchors": ["optlib/src/tools/statistics/mod.rs: get_average_goal, get_average_convergence, get_average, get_success_rate", "optlib/src/genetic/cross/mod.rs: Cross<G> for CrossMean"]}
{"id": "C84", "title": "Standard deviations are accurate", "statement": "A finite result of get_standard_deviation_goal and of get_standard_deviation (each coordinate) on n successful results differs from the exact sample standard deviation s of the numbers that went into it by at most 2 (n + 5) u (s + A) + 6 sqrt(t), where u is the unit roundoff, A the mean of the absolute values and t half the smallest positive number, for n up to 1/(10 u) - 10. In particular large equal parts of the numbers do not destroy the result beyond (n + 5) u A: the two-pass computation does not cancel catastrophically.", "quantifier": "all result lists, IEEE formats", "why_tests_cant": "rounding over all lists of all lengths", "anchors": ["optlib/src/tools/statistics/mod.rs: get_standard_deviation_goal, get_standard_deviation"]}
{"id": "C85", "title": "When the integration tests pass", "statement": "The integration tests with one optimizer (genetic-paraboloid, genetic-schwefel, genetic-rastrigin, particleswarm-paraboloid) end whatever the random generator does, find_min returns a point of the search box with its finite goal value, and the test passes exactly if this point is as near to the minimum as the assertions say; otherwise one of the assertions fails and there is no other panic. For genetic-paraboloid it is enough and necessary that the goal value is below 1e-3, for particleswarm-paraboloid a goal value below 0.09 is enough and one below 0.1 is necessary. genetic-stat-paraboloid, single run: passes always. Two runs: passes always in a build without overflow checks; in a checked build it passes or the second find_min panics with an overflow in GoalNotChange, and that happens for some random numbers. genetic-rosenbrock with 1 to 100 processors, if each run ends: whatever the scheduler does it gets the data of cpu * (100 / cpu) runs and passes exactly if at least three quarters of them (exactly, in spite of rounding) ended within 0.01 of the minimum, which is so for each run that ended with a goal value of at most 1e-6; with more than 100 processors it always panics.", "quantifier": "all random generators, platforms, schedules, numbers of processors, build profiles", "why_tests_cant": "these are the tests, and they are random: a run of them shows one outcome, not which outcomes are possible", "anchors": ["optlib/tests/genetic-paraboloid.rs: genetic_paraboloid", "optlib/tests/genetic-schwefel.rs: genetic_schwefel", "optlib/tests/genetic-rastrigin.rs: genetic_rastrigin", "optlib/tests/particleswarm-paraboloid.rs: test_particleswarm_paraboloid", "optlib/tests/genetic-stat-paraboloid.rs: genetic_paraboloid_single, genetic_paraboloid_two", "optlib/tests/genetic-rosenbrock.rs: genetic_rosenbrock"]}
{"id": "C86", "title": "A limit on the speed bounds how far particles get", "statement": "If MaxVelocityAbs with a limit m whose square does not underflow is the last velocity corrector of a swarm optimizer throughout a history of calls, then every velocity with which a particle is moved, and after each iteration the velocity of every particle, contains a NaN or is finite and has a true length of at most L = m (1 + 4 (n + 2) u), with n components and unit roundoff u. Without post-move hooks an iteration that leaves a particle at finite coordinates has moved it by at most 2 L, and by at most L plus the rounding error of the addition, u (|x| + L); k iterations move it by at most 2 k L. The initial velocities are not corrected: before the first iteration a particle can have a velocity beyond the limit.", "quantifier": "all histories of calls, points in them, limits, numbers of iterations, dimensions n with (n + 10) u <= 1/10, other components, random sources", "why_tests_cant": "the corrector is tested on single vectors with exact lengths; overflow, rounding and the whole run are claims about all inputs and histories", "anchors": ["optlib/src/particleswarm/postvelocitycalc/mod.rs: MaxVelocityAbs", "optlib/src/particleswarm/mod.rs: ParticleSwarmOptimizer::next_iterations"]}
{"id": "C87", "title": "The genetic optimizer after a caught panic", "statement": "A caller may catch a panic of find_min or next_iterations (in the goal function, a component, a logger, the stop checker or the library) and go on using the optimizer. Whatever panicked, how often and where: every individual, the best, the worst, everything shown to loggers and stop checkers and everything returned is a point with a value that the goal function returned for it earlier; with RandomCreator and the pre-birth interval check all of this stays in the intervals; a completed generation with survivors reports the extremes of all survivors. With selections that only kill (those of the library do, also when they panic half-way), next_iterations leaves behind what the last completed generation reported (or what was there at the beginning) followed by the children evaluated since, an interrupted generation is not counted, and find_min leaves the same starting from an empty population. A later find_min does what it does on a new optimizer; after a panic of the creator the old population is gone. Kills of an interrupted generation stay: after a caught panic of a selection, dead individuals can become parents. Without a panic all of this is the optimizer of the other properties.", "quantifier": "all histories of calls of the public methods in which each call may return or panic, all components, goal functions and random sources (components may keep changes of their own state when they panic)", "why_tests_cant": "a panic can come at any call of any component in any generation; the state it leaves behind is a claim about all these points", "anchors": ["optlib/src/genetic/mod.rs: GeneticOptimizer::find_min, GeneticOptimizer::next_iterations, GeneticOptimizer::run_pairing, Population::push, Population::append, Population::reset", "optlib/src/genetic/selection/vec_float.rs: CheckChromoInterval", "optlib/src/genetic/selection/mod.rs: KillFitnessNaN, LimitPopulation"]}
{"id": "C88", "title": "The swarm optimizer after a caught panic", "statement": "A caller may catch a panic of find_min or next_iterations and go on using the swarm optimizer. Whatever panicked, how often and where: every position, personal best and personal worst, the best, the worst, everything shown to loggers and stop checkers and everything returned is a point with a value that the goal function returned for it earlier, and each particle's value is between its personal best and worst; with MoveToBoundary as last post-move hook all of this stays in the intervals; a completed iteration reports a best and a worst that bound all current particles. next_iterations, returning or panicking, leaves behind what the last completed iteration reported (or what was there at the beginning), except that the first particles, as many as the goal function returned for since, have moved; an interrupted iteration is not counted; the best never gets worse; each particle's personal best is the best of its former one and its goal calls of this call. A panic of find_min before the new swarm is complete leaves the old swarm untouched, so that next_iterations continues the old run; otherwise find_min does what it does on a new optimizer. Not kept: after a caught panic and next_iterations the returned point can be worse than a point evaluated in the interrupted iteration (that point survives as a personal best), and the interrupted particle has its new velocity with its old position. Without a panic all of this is the optimizer of the other properties.", "quantifier": "all histories of calls of the public methods in which each call may return or panic, all components, goal functions, float types and random sources (components may keep changes of their own state when they panic)", "why_tests_cant": "a panic can come at any call of any component for any particle in any iteration; the state it leaves behind is a claim about all these points", "anchors": ["optlib/src/particleswarm/mod.rs: ParticleSwarmOptimizer::find_min, ParticleSwarmOptimizer::next_iterations, ParticleSwarmOptimizer::renew_swarm, Swarm::replace_particles, Swarm::update_best_particle, Particle::move_to", "optlib/src/particleswarm/postmove/mod.rs: MoveToBoundary"]}
{"id": "C89", "title": "The reported minima of the example programs are accurate", "statement": "On a platform whose f32 sine and cosine are within 1e-6 of the true ones and at most 1 in absolute value, whatever the random numbers: the point and value that an example program prints at its end belong together in exact arithmetic. The value differs from the true function at the returned point by at most 0.04 (genetic Schwefel, 15 components), 0.0075 (genetic Rastrigin, 30 components), 0.008 (swarm Schwefel), 0.00075 (swarm Rastrigin), E/10^6 + 0.001 (both Rosenbrock programs, the genetic one if it ends) and 3E/10^6 + 1e-38 (both paraboloid programs), where E is the true value; the genetic Schwefel and Rastrigin programs report no value below minus that error. The swarm programs for Schwefel and Rastrigin return a point at which the true function exceeds its value at every evaluated point by at most twice that error.", "quantifier": "all random number sequences, all platforms with sine and cosine of that accuracy, both build profiles, all clocks", "why_tests_cant": "a run evaluates a few thousand of the floating-point points of the box; the bound is about all points a run may return", "anchors": ["optlib/examples/genetic-schwefel.rs: main", "optlib/examples/genetic-rastrigin.rs: main", "optlib/examples/genetic-rosenbrock.rs: main", "optlib/examples/genetic-paraboloid.rs: main", "optlib/examples/particleswarm-schwefel.rs: main", "optlib/examples/particleswarm-rastrigin.rs: main", "optlib/examples/particleswarm-rosenbrock.rs: main", "optlib/examples/particleswarm-paraboloid.rs: main", "optlib-testfunc/src/lib.rs: schwefel, rastrigin, rosenbrock, paraboloid"]}
{"id": "C90", "title": "Which of several equally good solutions is reported", "statement": "The swarm reports, in every state shown to a stop checker or logger and as the result of find_min and next_iterations, the first of the best points in the order in which the goal was called since the particles were created: every point before it is strictly worse and no later one is better (non-finite values are all equally bad). The genetic optimizer reports after each generation, and returns, the first survivor in the order of the population (older individuals first, as in C32) among those with the least fitness, and get_worst is the last one among those with the greatest fitness; NaN counts as worst when looking for the best and as best when looking for the worst. If all fitnesses are NaN both are the last survivor, not the first.", "quantifier": "all components, all call histories, all goal values including ties, NaN and infinities", "why_tests_cant": "ties between arbitrary points at arbitrary times of arbitrary histories", "anchors": ["optlib/src/genetic/mod.rs: update_best_worst_individuals", "optlib/src/genetic/mod.rs: individuals_min_cmp", "optlib/src/genetic/mod.rs: individuals_max_cmp", "optlib/src/particleswarm/mod.rs: update_best_particle", "optlib/src/particleswarm/mod.rs: find_best_particle"]}
{"id": "C91", "title": "How likely an individual is to become a parent", "statement": "Let all sequences of the integers drawn be equally likely. Tournament chooses all members of all families independently of each other. Without NaN fitness an individual is chosen as a member with the chance (((t + w) / n)^(r + 1) - (w / n)^(r + 1)) / t, where n is the size of the population, r the number of rounds, w the number of worse individuals and t the number of individuals with the same fitness, itself included; so with r > 0 a better individual always has a greater chance than a worse one, with r = 0 all have the same, and with the default r = 1 an individual without equals that k others surpass has the chance (2 (n - k) - 1) / n^2. With NaN fitness an individual is chosen with the chance 1 / n, however many rounds there are: the tournament does not keep it out. RandomPairing returns each of the possible tables of len / 2 pairs (an individual may be paired with itself) with the same chance.", "quantifier": "all populations, numbers of families, partners and rounds, fitness values, tables of families", "why_tests_cant": "a test sees a few draws; the chance of an outcome is a count over all sequences of draws", "anchors": ["optlib/src/genetic/pairing/mod.rs: Tournament::get_pairs, RandomPairing::get_pairs"]}
{"id": "C92", "title": "How likely the results of bitwise mutation and crossing are", "statement": "Let all sequences of the integers drawn be equally likely. After BitwiseMutation with k changes of a gene of w bits the chance of a result depends only on the number of bits in which it differs from the gene (it is that of a walk to 0 that starts at this number d and goes down with the chance d / w, else up), so after two changes the gene is unchanged with the chance 1 / w; each bit is changed with the same chance (1 - (1 - 2/w)^k) / 2. CrossBitwise takes the bit j (0 is the lowest) from the second parent with the chance (w - 1 - j) / (w - 1): the lowest always, the highest (the sign) never.", "quantifier": "all genes, formats, numbers of changes, results, bits", "why_tests_cant": "a test sees a few draws; the chance of an outcome is a count over all sequences of draws", "anchors": ["optlib/src/genetic/mutation/mod.rs: BitwiseMutation", "optlib/src/genetic/cross/mod.rs: CrossBitwise"]}
{"id": "C93", "title": "The probability of VecMutation is the share of mutated genes in percent", "statement": "Let the float that VecMutation draws for a gene be one of m equally likely values. Then each gene is mutated independently of the others with the same chance, the share of the values less than the probability. If the values are evenly spread over [0, 100), the k-th at a distance of at most 100 d from 100 k / m, this chance is probability / 100 up to d and 1 / m, for every probability from 0 to 100.", "quantifier": "all chromosomes, mutations without draws that change every gene, probabilities, finite sets of possible draws", "why_tests_cant": "a test sees a few draws; the chance of an outcome is a count over all sequences of draws", "anchors": ["optlib/src/genetic/mutation/mod.rs: VecMutation"]}
{"id": "C94", "title": "How large a child of FloatCrossExp can be", "statement": "Write a normal f32 or f64 as m * 2^e with a whole mantissa m of full length (24 or 53 bits). For normal parents FloatCrossExp splices the mantissas at one position and the exponents (as 16-bit integers) at another, low bits from the second parent, and returns the correctly rounded number with the spliced mantissa and exponent and with the sign of one of the parents, as drawn (zero, if the power of two is below the smallest positive number). If the first parent is below 2^52 in magnitude (f64; 2^23 for f32), the child is finite and below that too, whatever the second parent is (even NaN); if the first parent is finite and not below it and the second normal, the child is not below it. More exactly: whenever both parents lie between 2^(52 + j 2^k) and 2^(52 + (j + 1) 2^k) (23 for f32; normal numbers), the child does too and nothing is rounded; in f64, for example, numbers from 2^-12 to 16 have children from 2^-12 to 16. Beyond 2^52 the child of two finite numbers can be infinite (2^60 with 1), and the child of two positive normal numbers can be zero.", "quantifier": "all f32 and f64 parents, all random draws, both build profiles, every math library whose exp2 is right on 16-bit integers", "why_tests_cant": "the parents range over 2^128 pairs and the two positions over 945 combinations; infinite or zero children need particular exponents", "anchors": ["optlib/src/genetic/cross/mod.rs: FloatCrossExp", "optlib/src/genetic/cross/mod.rs: cross_i16", "optlib/src/genetic/cross/mod.rs: cross_u64"]}
{"id": "C95", "title": "Whether a particle settles", "statement": "Take exact arithmetic, no hooks, and a particle whose own best and whose swarm's best stay where they are (b and g in one coordinate) in a run that never stops; let every random factor be the same r > 0. With CanonicalVelocityCalculator and any parameters its constructor accepts, the coordinate converges to the mean (phi_p b + phi_g g) / (phi_p + phi_g) and the velocity to 0. With InertiaVelocityCalculator and ConstInertia w, 0 <= w < 1, the same holds if 0 < (phi_p + phi_g) r < 2 (1 + w); beyond 2 (1 + w) a particle at rest away from the mean runs away geometrically. With ClassicVelocityCalculator the coordinate stays bounded but converges to nothing if (phi_p + phi_g) r < 4, unless it is at rest on the mean from the start, and runs away from rest beyond 4. The constriction factor does not protect against varying random factors: with phi_p = 3.2, phi_g = 1, alpha = 0.9 and factors that are 0 in one iteration and 1 in the next, a particle moves away geometrically although the goal is constant.", "quantifier": "all numbers of particles and dimensions, parameters, positions and velocities, all calls to find_min and next_iterations on optimizers in any state, unboundedly many iterations", "why_tests_cant": "convergence and divergence are statements about infinitely many iterations and about all parameters", "anchors": ["optlib/src/particleswarm/velocitycalc/mod.rs: CanonicalVelocityCalculator", "optlib/src/particleswarm/velocitycalc/mod.rs: InertiaVelocityCalculator", "optlib/src/particleswarm/velocitycalc/mod.rs: ClassicVelocityCalculator", "optlib/src/particleswarm/mod.rs: next_iterations"]}
{"id": "C96", "title": "Without mutation a genetic search only recombines", "statement": "Let the optimizer cross with VecCrossAllGenes and mutate with VecMutation at a probability that is not above 0 (0, negative or NaN), with any creator, pairing, goal, stop checker and loggers, pre-birth components that only drop children and selections that only kill. With CrossBitwise every chromosome of the population, the best and worst individual kept, and every point at which the goal is called has the number of genes of a chromosome that the creator made for this run, and each of its bits is found in the same bit of the same gene of such a chromosome; if all chromosomes the creator made are equal, the goal is never called anywhere else. With CrossMean, if the doubles of the created genes do not overflow, each gene always lies between two genes that the creator made in the same place. Chromosomes of earlier runs have no influence.", "quantifier": "all sequences of find_min, next_iterations and replacements of components, at every turn of the loop, all populations, chromosome lengths, random draws, all float formats", "why_tests_cant": "what is never born in any generation of any run cannot be seen in a finite number of runs", "anchors": ["optlib/src/genetic/cross/mod.rs: VecCrossAllGenes", "optlib/src/genetic/cross/mod.rs: CrossBitwise", "optlib/src/genetic/cross/mod.rs: CrossMean", "optlib/src/genetic/mutation/mod.rs: VecMutation", "optlib/src/genetic/mod.rs: next_iterations"]}
{"id": "C97", "title": "A swarm that is at rest in one direction stays at rest in it", "statement": "With any of the four velocity calculators and finite parameters: if one coordinate of all particles is equal (0 and -0 count as equal) and finite when the swarm is created, and the initial velocities there are 0, as ZeroVelocityInitializer makes them, then this coordinate of every particle, of its own best and worst position, of the best and worst of the swarm, and of every argument of the goal keeps this value for the whole run, in floating point too. So a swarm whose particles all start in one place without velocity, above all a swarm of a single particle, calls the goal in that place only, however long it runs. MaxVelocityDimensions (limits not negative or NaN), MaxVelocityAbs (limit not negative) and MoveToBoundary (intervals that contain the value) do not change this; a negative limit of MaxVelocityDimensions sets a particle at rest in motion.", "quantifier": "all sequences of find_min, next_iterations and replacements of hooks, loggers and stop checkers, at every iteration, all numbers of particles and dimensions, goals, random draws, float formats, all user hooks that keep the value", "why_tests_cant": "it is a statement about all iterations of all runs and all finite parameters", "anchors": ["optlib/src/particleswarm/mod.rs: next_iterations", "optlib/src/particleswarm/velocitycalc/mod.rs: ClassicVelocityCalculator", "optlib/src/particleswarm/velocitycalc/mod.rs: NegativeReinforcement", "optlib/src/particleswarm/initializing/mod.rs: ZeroVelocityInitializer", "optlib/src/particleswarm/postvelocitycalc/mod.rs: MaxVelocityAbs", "optlib/src/particleswarm/postmove/mod.rs: MoveToBoundary"]}
{"id": "C98", "title": "Only the order of the goal values matters", "statement": "Take two optimizers that differ in their goal functions only, where the values of the two are ordered in the same way and are finite or NaN together (for example goal values in other units, or any increasing function of them), and let both use the same random numbers. Then in every history of calls both panic in the same way, or both evaluate the same points in the same order, pair, cross, mutate, kill and move the same ones, and return the same points. This holds for the pairing methods, selections, pre-birth checks, velocity calculators and hooks of the library, for MaxIterations, and for Threshold if its value is moved along. It does not hold for GoalNotChange, whose delta is a distance of values: two searches that rank the points alike stop after 4 and after 3 generations.", "quantifier": "all pairs of goal functions that rank the points in the same way, all components, seeds, sizes, histories of calls, both optimizers", "why_tests_cant": "it compares all pairs of goal functions on all runs", "anchors": ["optlib/src/genetic/mod.rs: next_iterations", "optlib/src/genetic/pairing/mod.rs: Tournament", "optlib/src/genetic/selection/mod.rs: LimitPopulation", "optlib/src/particleswarm/mod.rs: next_iterations", "optlib/src/particleswarm/velocitycalc/mod.rs: NegativeReinforcement", "optlib/src/tools/stopchecker/mod.rs: GoalNotChange"]}
{"id": "C99", "title": "The genetic optimizer treats chromosomes as opaque", "statement": "Let two genetic optimizers work on different types of chromosomes, with a relation that says which chromosome of the one stands for which of the other. If creator, goal, crossing, mutation, selections and pre-births of the second do to chromosomes what those of the first do to the related ones, then with the same random numbers every history of calls panics alike on both or gives related populations, events, loggers' calls and results. So the representation of the individuals can be changed without changing the search.", "quantifier": "all chromosome types, relations between them, components, histories of calls", "why_tests_cant": "it ranges over all types, all user components and all histories", "anchors": ["optlib/src/genetic/mod.rs: GeneticOptimizer", "optlib/src/genetic/mod.rs: Population", "optlib/src/genetic/mod.rs: Individual"]}
{"id": "C100", "title": "The swarm has no preferred direction, unit or origin", "statement": "Flip the sign of any chosen coordinates of the initial positions and velocities and flip them in the goal as well. With the same random numbers the particle swarm then makes exactly the mirrored run: in every history of calls all positions and velocities are mirrored without any error of rounding (overflow and NaN included; 0 and -0 count as the same), the goal is called with the mirrored points in the same order, all values are the same, it panics alike, and the results are mirrored. This holds for the four velocity calculators, for MaxVelocityDimensions unless a limit is negative, for MaxVelocityAbs, for the stop checkers, and for MoveToBoundary with the mirrored intervals as long as coordinates are finite. The exception: MoveToBoundary moves an infinite coordinate to the lower end, whatever its sign. In exact arithmetic the same holds for any change of unit and origin of each coordinate (limits of velocities and intervals moved along).", "quantifier": "all choices of coordinates, goals, initial swarms, components, seeds, histories of calls", "why_tests_cant": "it compares all pairs of mirrored runs, with all corner cases of the float arithmetic", "anchors": ["optlib/src/particleswarm/mod.rs: next_iterations", "optlib/src/particleswarm/velocitycalc/mod.rs: ClassicVelocityCalculator", "optlib/src/particleswarm/velocitycalc/mod.rs: NegativeReinforcement", "optlib/src/particleswarm/postvelocitycalc/mod.rs: MaxVelocityAbs", "optlib/src/particleswarm/postmove/mod.rs: MoveToBoundary"]}
{"id": "C101", "title": "Velocities, inertia weights and constriction factors are computed accurately", "statement": "With unit roundoff u (2^-24 for f32, 2^-53 for f64) and t half of the smallest positive number: every finite velocity component that a velocity calculator returns differs from the exact value of its documented formula, at the same random factors, by at most ((1+u)^k - 1) times the sum of the absolute values of the terms of the formula, plus (1+u)^k t times the distances of the targets plus one for each term, with k = 5 for the classic calculator and the one with inertia, 6 for the canonical one and 10 for NegativeReinforcement. LinearInertia differs from w_max - (w_max - w_min) i / t_max by at most ((1+u)^4 - 1)(|w_max| + |w_max - w_min| i / t_max) + 2 (1+u)^4 t, for iteration numbers that the type holds exactly, so up to t_max it falls below w_min by rounding errors only. The constriction factor is 2 alpha / (phi_p + phi_g - 2) up to the relative error 6 u and t, if phi_p + phi_g does not overflow. A relative error alone cannot be promised: products that underflow give 0 instead of 2^-75.", "quantifier": "all swarms, particles, coefficients, random sequences, iteration numbers, float formats", "why_tests_cant": "it bounds the rounding error for all floats", "anchors": ["optlib/src/particleswarm/velocitycalc/mod.rs: ClassicVelocityCalculator", "optlib/src/particleswarm/velocitycalc/mod.rs: CanonicalVelocityCalculator", "optlib/src/particleswarm/velocitycalc/mod.rs: NegativeReinforcement", "optlib/src/particleswarm/velocitycalc/mod.rs: InertiaVelocityCalculator", "optlib/src/particleswarm/velocitycalc/mod.rs: LinearInertia"]}
{"id": "C102", "title": "How likely the random points of the creators and of RandomTeleport are", "statement": "Let all sequences of draws of a random number be equally likely. All genes of all chromosomes made by RandomCreator, and all coordinates and velocities made by RandomCoordinatesInitializer and RandomVelocityInitializer, are independent of each other, and each has the distribution of a draw from its own interval: if the draws are evenly spread, the chance that a gene is less than c is the part of its interval below c (up to the deviations of the draws and one draw). RandomTeleport moves a particle with a chance that is the given probability, up to the same errors; the new coordinates are then independent draws from the intervals, and otherwise the particle stays where it is.", "quantifier": "all sizes, intervals, probabilities, particles, float formats, and all ways to turn draws into floats", "why_tests_cant": "a chance is a statement about all sequences of draws; a test sees a sample", "anchors": ["optlib/src/genetic/creation/vec_float.rs: RandomCreator", "optlib/src/tools/mod.rs: RandomVectorCreator", "optlib/src/particleswarm/initializing/mod.rs: RandomCoordinatesInitializer", "optlib/src/particleswarm/postmove/mod.rs: RandomTeleport"]}
{"id": "C103", "title": "How likely random integer genes are", "statement": "Let all sequences of draws be equally likely and the draws evenly spread over the interval from lo to hi of an integer gene. All genes are independent. The chance of a value is the part of the interval whose numbers have it as their whole part (cut toward 0), up to twice the deviation of the draws and one draw: 1 / (hi - lo) for inner values other than 0, for a least value from 0 on and for a greatest value up to 0; 2 / (hi - lo) for 0 inside the interval; and 0 for a greatest value above 0 and for a least value below 0, although the interval includes them. So the values are not equally likely.", "quantifier": "all integer types, intervals not beyond 2^53, sizes, values, and all evenly spread draws", "why_tests_cant": "a chance is a statement about all sequences of draws; a test sees a sample", "anchors": ["optlib/src/genetic/creation/vec_float.rs: RandomCreator", "optlib/src/tools/mod.rs: RandomVectorCreator", "optlib/src/particleswarm/initializing/mod.rs: RandomCoordinatesInitializer"]}
{"id": "C104", "title": "With RandomTeleport the swarm finds every region the teleports can reach", "statement": "Let all sequences of draws be equally likely, and let RandomTeleport be among the post-move hooks, followed only by hooks that keep points of a region in it (such as MoveToBoundary for a box that contains the region). Let c be the chance that one teleport happens and leads into the region; for a region given by conditions on the single coordinates it is the product of their chances. Then find_min of a new optimizer with n particles, stopped after k iterations, returns with a chance of at least 1 - (1 - c)^(n (k + 1)) a solution whose value is not worse than a value of the goal in the region, whatever the goal, the initializers, the velocity calculator and the other hooks do, as long as they draw boundedly many numbers and do not panic; all components of the library do so. If the values in the region are finite and at most b, so is the value found. If c is positive and there are particles, the chance tends to 1 with the number of iterations. Without RandomTeleport this does not hold: a swarm at rest in one place never leaves it (C97). The mean number of iterations after the initialization that a swarm of n particles needs to find the region is at most r / (1 - r) with r = (1 - c)^n, c being the chance that a teleport leads into the region.", "quantifier": "all regions, goals, dimensions, numbers of particles and iterations, components (also with state and own randomness), intervals, probabilities, all lengths of the sequence of draws from some length on", "why_tests_cant": "a chance is a statement about all sequences of draws and the bound must hold for every region and goal; a test runs one goal on a few sequences", "anchors": ["optlib/src/particleswarm/postmove/mod.rs: RandomTeleport", "optlib/src/particleswarm/mod.rs: next_iterations", "optlib/src/particleswarm/mod.rs: renew_swarm"]}
{"id": "C105", "title": "Which values a line of bitwise mutations can reach", "statement": "Let a value be mutated n times in a row by BitwiseMutation with k flips. The values this can lead to are exactly those that differ from the first one in at most n * k bits and in a number of bits of the same parity as n * k; with no random generator can it lead elsewhere. So with an odd k every value of the type can be reached from every other one, within as many mutations as bits differ. With an even k only half of the values can ever be reached, whatever the number of generations: those at an even number of bits; in particular x never becomes -x. With an even k above 0 the whole of this half is reached.", "quantifier": "all values of f32 and f64 (infinite and NaN too), all numbers of flips and of mutations; all random generators for the upper bound", "why_tests_cant": "that a value is never reached is a statement about all random sequences of all lengths, and that every value is reached ranges over 2^64 values", "anchors": ["optlib/src/genetic/mutation/mod.rs: BitwiseMutation"]}
{"id": "C106", "title": "Velocities stay finite, or a coordinate sticks to its lower bound", "statement": "Let a swarm optimizer use MoveToBoundary as its last post-move hook and one of the four velocity calculators of the library, let no interval be longer than W and no initial velocity component be larger than B. Let V be the largest velocity that the formula of the calculator, computed with floats, can give for velocities of at most B and distances of at most W (for the classic one (B + |phi_p| W) + |phi_g| W). If V is finite and the correctors bring velocities down to B again (MaxVelocityDimensions with limits of at most B; MaxVelocityAbs with a limit below B by the rounding error, if limit times V is finite; or none, if V is at most B, as is usual for the canonical calculator), then throughout any history every velocity component computed is finite and at most V, and every one that a particle has is finite and at most B. If also the largest coordinate plus B is finite, all positions are finite before MoveToBoundary sees them. The velocities of the five swarm example programs are in this way at most 11, 10, 6, 707 and 707, those of the statistics programs at most 707 and 3. Otherwise NaN can occur (MaxVelocityAbs makes NaN of an infinite velocity), and then there is no way back: with the components of the library, a velocity component that is NaN stays NaN in all later iterations, and with MoveToBoundary as the post-move hook the coordinate is at the lower end of its interval after each of them.", "quantifier": "all histories of calls, goals, random generators, boxes, dimensions, coefficients, inertia weights, limits, other post-move hooks, stop checkers, loggers; f32 and f64", "why_tests_cant": "overflow depends on the worst combination of coefficients, positions and random factors over all iterations, and that a particle never recovers is a statement about all continuations", "anchors": ["optlib/src/particleswarm/velocitycalc/mod.rs: ClassicVelocityCalculator", "optlib/src/particleswarm/velocitycalc/mod.rs: CanonicalVelocityCalculator", "optlib/src/particleswarm/velocitycalc/mod.rs: NegativeReinforcement", "optlib/src/particleswarm/velocitycalc/mod.rs: InertiaVelocityCalculator", "optlib/src/particleswarm/postvelocitycalc/mod.rs: MaxVelocityAbs", "optlib/src/particleswarm/postvelocitycalc/mod.rs: MaxVelocityDimensions", "optlib/src/particleswarm/postmove/mod.rs: MoveToBoundary"]}
{"id": "C107", "title": "The bitwise genetic search has no preferred bit pattern", "statement": "Fix for every gene a mask of bits to be turned over. Let one search with VecCrossAllGenes over CrossBitwise and VecMutation over BitwiseMutation minimise a goal, and let a second one minimise the goal that turns the bits of its argument over first, starting from the initial population with its bits turned over. With the same random numbers both panic alike, or the second does to turned chromosomes all that the first one does: it evaluates the turned points in the same order, kills and keeps the corresponding individuals and returns the turned point with the same value. In particular, for a goal that does not change when some of the genes are negated, the search from the mirrored population is the mirrored search, also with interval checks if the intervals are mirrored too. Crossings that compute with the numbers do not have this property: CrossMean of 1 and -1 is +0, and of their mirror images as well.", "quantifier": "all masks (one per gene), goals, creators of chromosomes of the right length, random generators, numbers of flips, mutation probabilities, tournaments, limits, histories of calls; f32 and f64, infinite and NaN genes included", "why_tests_cant": "it compares two whole runs for all 2^64 masks per gene, all goals and all random sequences", "anchors": ["optlib/src/genetic/cross/mod.rs: CrossBitwise", "optlib/src/genetic/cross/mod.rs: VecCrossAllGenes", "optlib/src/genetic/mutation/mod.rs: BitwiseMutation", "optlib/src/genetic/mutation/mod.rs: VecMutation", "optlib/src/genetic/mod.rs: GeneticOptimizer"]}
{"id": "C108", "title": "What the random initial points find, the search keeps", "statement": "Let c be the chance that one random initial point lies in a region where the goal is finite and at most b. A fresh swarm with RandomCoordinatesInitializer for n particles, whose post-move hooks do not lead out of the region (MoveToBoundary with intervals around it does not), returns a value of at most b with a chance of at least 1 - (1 - c)^n, whatever the goal elsewhere, the velocity calculator, the velocity hooks and the stop checker are, provided the run returns; a swarm put together from the library with a bounded number of iterations does. The same holds for a genetic optimizer with RandomCreator for n individuals if all selections keep the best individual (KillFitnessNaN does) and there is at least one generation: its result is not worse than any finite value evaluated since the population was created. For a box the chance c is the product of the chances of the coordinates. With LimitPopulation the genetic search can lose what it has found and return a worse value than one it has evaluated.", "quantifier": "all regions, goals, intervals, numbers of points, velocity calculators, pairings, crossings, mutations, stop checkers; all tapes of draws of sufficient length; f32 and f64", "why_tests_cant": "it is a bound on the probability over all random sequences, for every goal and region", "anchors": ["optlib/src/particleswarm/initializing/mod.rs: RandomCoordinatesInitializer", "optlib/src/genetic/creation/vec_float.rs: RandomCreator", "optlib/src/particleswarm/mod.rs: renew_swarm", "optlib/src/tools/mod.rs: RandomVectorCreator", "optlib/src/genetic/selection/mod.rs: KillFitnessNaN"]}
{"id": "C109", "title": "With a mutation that can reach a region the genetic search finds it in the long run", "statement": "Let every mutation, of whatever chromosomes, lead into a region with a chance of at least q, let b children or more be made in a generation, and let the pre-birth filters keep points of the region. Then after n generations a point of the region has been evaluated with a chance of at least 1 - (1 - q)^(b n), whatever the goal, the initial population, the pairing, the crossing and the selections are. If moreover the selections keep the best individual, the solution found is not worse than the goal at such a point; so for q > 0 and every eps > 0 there is a number of generations from which on the search finds a value as good as the region's with a chance of at least 1 - eps. The optimizer built from the library with Tournament for b families and VecMutation over BitwiseMutation meets this for d genes with q = 1/m^((1+count)d), m values per draw, if every value of a gene differs from a value of the region in at most count bits and in an even number of bits if and only if count is even; for count at least the width of the type it is enough that the region contains two values that differ in an odd number of bits. The mean number of generations until a point of the region is evaluated is at most 1 / (1 - (1 - q)^b). With RandomPairing this fails: a population that has shrunk to one individual has no pairs, and from one initial individual the search evaluates that one point and never another.", "quantifier": "all regions, goals, crossings, selections, numbers of generations and families, mutation probabilities for which some draw mutates; all tapes of draws of sufficient length; f32 and f64; for the stalled search all random generators and numbers of generations", "why_tests_cant": "it bounds a probability over all random sequences for every number of generations; the limit statement cannot be observed in any finite number of runs", "anchors": ["optlib/src/genetic/mutation/mod.rs: BitwiseMutation", "optlib/src/genetic/mutation/mod.rs: VecMutation", "optlib/src/genetic/pairing/mod.rs: Tournament", "optlib/src/genetic/pairing/mod.rs: RandomPairing", "optlib/src/genetic/mod.rs: GeneticOptimizer"]}
{"id": "C110", "title": "The printed success rate estimates the chance of success", "statement": "Let p be the chance that a single run of a statistics program ends with a solution close to the valid answer, all draws of the random numbers being equally likely and independent. The runs do not depend on each other, neither within a thread nor between threads: whatever the scheduler does, the number of close solutions counted by a program with cpu threads and R runs in each has the binomial distribution with n = cpu * R trials and chance p. So the mean value of the share is p, and the printed success rate differs from p by delta and 2^-52 or more with a chance of at most p (1 - p) / (n delta^2). This holds for the five swarm programs and for genetic-schwefel-statistics; n is cpu * (1000 / cpu). A single program run says nothing for sure: with two runs of chance 1/2 the rate is 0 or 1 with a chance of 1/2.", "quantifier": "all sources of random numbers that map equally likely draws to values of the range asked for, all numbers of processors from 1 to 1000, all schedules, all deltas, all lengths of the tape of draws from some length on; for the distribution all jobs whose runs end with one result, read boundedly many draws and begin anew", "why_tests_cant": "it is a statement on the probability over all random sequences and on all schedules of the threads; running the program is itself the experiment whose reliability is at issue", "anchors": ["optlib/examples/particleswarm-schwefel-statistics.rs: print_statistics", "optlib/examples/particleswarm-schwefel-statistics.rs: create_optimizer", "optlib/examples/genetic-schwefel-statistics.rs: create_optimizer", "optlib/src/tools/statistics/mod.rs: get_success_rate", "optlib/src/tools/stopchecker/mod.rs: GoalNotChange"]}
{"id": "C111", "title": "Calling find_min again is an independent trial", "statement": "Let the components of an optimizer keep no state of their own, and let find_min not panic. Call find_min n times on the same object. Then whether one call returns a good solution, for whatever notion of good, has nothing to do with the other calls: the number of good results has the binomial distribution with n trials and the chance p of a single call on a new optimizer. So all n calls miss a value of at most b with chance (1 - p)^n. This holds for every swarm and every genetic optimizer put together from the library whose number of iterations is bounded. It fails if a component keeps a state, as GoalNotChange does: after a first run a second one may stop at once, at a point from which it would have found the minimum with a new object.", "quantifier": "all optimizers of both kinds whose components take their random numbers one after the other, all goals, all numbers of restarts, all notions of a good result, all lengths of the sequence of draws from some length on", "why_tests_cant": "independence is a statement on the joint probability of all random sequences; a test sees one sequence, and a hidden dependence between runs shows only in the frequencies", "anchors": ["optlib/src/genetic/mod.rs: find_min", "optlib/src/particleswarm/mod.rs: find_min", "optlib/src/tools/stopchecker/mod.rs: GoalNotChange"]}
{"id": "C112", "title": "A run may be done in parts", "statement": "Let a stop checker P decide by the best solution and the iteration number alone, as MaxIterations, Threshold and compositions of them do, and let the loggers not fail. A run with find_min that is stopped early by other such checkers, any number of times, and continued with set_stop_checker and next_iterations until P stops it, ends exactly as find_min with P in one go: the same answer, the same agents, the same evaluations and random numbers in the same order, or the same panic; only what the loggers are told differs. Each of the earlier checkers stops at the latest when P does. Calling next_iterations once more with the same checker returns the same answer and does nothing; this holds for every checker of the library, GoalNotChange and compositions included. More iterations never hurt a swarm: with a checker that stops later the answer is not worse for the same random numbers. The first fails for GoalNotChange: the new object given for the continuation begins to count when it is first asked, so the run in parts may last longer. The last fails for the genetic optimizer with LimitPopulation: a second generation may lose the answer of the first.", "quantifier": "all optimizers of both kinds, with components that may keep any state; all goals, random generators, numbers of parts, stopping conditions on best solution and iteration number, lists of loggers whose callbacks do not fail; the two iterative programs with any such loggers", "why_tests_cant": "it compares two histories of calls for every place where the run may be interrupted, every component and every random sequence; a test fixes one place and one sequence", "anchors": ["optlib/src/genetic/mod.rs: next_iterations", "optlib/src/genetic/mod.rs: find_min", "optlib/src/particleswarm/mod.rs: next_iterations", "optlib/src/particleswarm/mod.rs: find_min", "optlib/src/tools/stopchecker/mod.rs: GoalNotChange", "optlib/examples/genetic-schwefel-iterative.rs: main", "optlib/examples/particleswarm-schwefel-iterative.rs: main"]}
{"id": "C113", "title": "The printed average goal and standard deviation estimate those of a single run", "statement": "Let the goal value that a single run returns have the mean value mu and the variance s, and let a statistics program do n runs on any number of processors. Then, whatever the scheduler does, the mean value of the exact average of the goals is mu, the mean value of the square of its error is s / n, and with two runs or more the mean value of the exact sample variance (with the divisor n - 1) is s. The chance is at most s / (n delta^2) that the program prints a finite average goal that differs from mu by delta and the rounding error or more. If the printed average and standard deviation are finite they are the exact average and the root of the exact sample variance up to rounding errors. A goal that is not finite counts as zero in mu and s; if there is one among the results the printed average is not finite. The mean value of the standard deviation, the root of the sample variance, is at most the root of s, and it may be less: the printed deviation is too small on average.", "quantifier": "all jobs whose runs end after boundedly many draws with one result and begin anew each time, among them those of the five swarm statistics programs and genetic-schwefel-statistics; all numbers of processors and runs, all schedules, all lengths of the sequences of draws from some length on, all delta", "why_tests_cant": "mean values and chances are taken over all random sequences, and the claim is for every interleaving of the threads; a test sees one sequence and one schedule, and cannot tell the divisor n - 1 from n", "anchors": ["optlib/src/tools/statistics/mod.rs: get_average_goal", "optlib/src/tools/statistics/mod.rs: get_standard_deviation_goal", "optlib/examples/particleswarm-schwefel-statistics.rs: print_statistics", "optlib/examples/genetic-schwefel-statistics.rs: print_statistics"]}
{"id": "C114", "title": "The printed average call count estimates the mean number of evaluations of a single run", "statement": "Let a single run call the goal function at most b times and mu times on average, and let a statistics program do n runs on any number of processors. Then, whatever the scheduler does, the mean value of the exact average of the call counts is mu and that of their total is n mu, and the chance is at most mu (b - mu) / (n delta^2) that the program prints an average call count that differs from mu by delta and the rounding error (b + 1) / 2^53 or more, as long as n b is at most 2^53. For the runs of the programs with a bound on the number of iterations b is 30 * 3001, 50 * 1001, 50 * 401, 50 * 401 and 100 + 50 * 3000. For particleswarm-rosenbrock-statistics, whose runs are bounded by the precision of the numbers only, the claims about the exact average and the total hold, and nothing is claimed about the rounded average.", "quantifier": "all jobs whose runs end after boundedly many draws with one result and one counter of at most b calls and begin anew each time, among them those of the five swarm statistics programs and genetic-schwefel-statistics; all numbers of processors and runs, all schedules, both build profiles, all lengths of the sequences of draws from some length on, all delta", "why_tests_cant": "mean values and chances are taken over all random sequences, and the claim is for every interleaving of the threads that share the counters; a test sees one sequence and one schedule", "anchors": ["optlib/src/tools/statistics/mod.rs: get_average_call_count", "optlib/src/tools/statistics/mod.rs: GoalCalcStatistics", "optlib/examples/particleswarm-schwefel-statistics.rs: print_statistics", "optlib/examples/genetic-schwefel-statistics.rs: print_statistics"]}
{"id": "C115", "title": "The averaged convergence estimates the progress of the runs that last", "statement": "Let p be the chance that a single run lasts beyond iteration i, and let a statistics program do n runs on any number of processors. Whatever the scheduler does, the chance that something is printed for iteration i is p^n. Let p not be zero, and let mu and s be the mean value and the variance of the best goal at iteration i among the runs that last beyond it. In the cases where something is printed for iteration i, the mean value of the exact average is mu and that of the square of its error is s / n. The chance is at most p^n s / (n delta^2) that a finite value is printed for iteration i that differs from mu by delta and the rounding error or more. All runs of genetic-schwefel-statistics last for 3000 iterations, so p is one there. If runs may stop early, mu is not the mean best goal that runs have reached by iteration i: the runs that have stopped are left out, so mu may be greater than the mean goal at an earlier iteration.", "quantifier": "all jobs whose runs end after boundedly many draws with one result and one row of solutions and begin anew each time, among them those of the five swarm statistics programs and genetic-schwefel-statistics; all iterations, numbers of processors and runs, all schedules, all lengths of the sequences of draws from some length on, all delta", "why_tests_cant": "mean values and chances are taken over all random sequences, and the claim is for every iteration and every interleaving of the threads; a test sees one table", "anchors": ["optlib/src/tools/statistics/mod.rs: get_average_convergence", "optlib/src/tools/statistics/mod.rs: get_min_iterations", "optlib/examples/particleswarm-schwefel-statistics.rs: print_convergence_statistics", "optlib/examples/genetic-schwefel-statistics.rs: print_convergence_statistics"]}
{"id": "C116", "title": "The averaged convergence of a swarm does not rise", "statement": "In the five swarm statistics programs the averaged convergence that is printed does not rise: as floating-point numbers, rounding included, no entry is greater than an earlier one, and the average goal of the results is not greater than any entry. This holds on any number of processors, in whatever order the threads deliver their data. It fails for a genetic optimizer with LimitPopulation, which may lose its best solution.", "quantifier": "all sets of faithful records of swarm runs, merged in any order; all random generators and libm implementations within their contracts, all numbers of processors, all schedules, both build profiles", "why_tests_cant": "a sum of rounded numbers need not be monotone in an obvious way for every table of runs; a test sees one table, one order of summation and one schedule", "anchors": ["optlib/src/tools/statistics/mod.rs: get_average_convergence", "optlib/src/tools/statistics/mod.rs: get_average_goal", "optlib/examples/particleswarm-schwefel-statistics.rs: print_convergence_statistics", "optlib/src/particleswarm/mod.rs: find_min"]}
{"id": "C117", "title": "The scheduler changes only the order and the rounding of what a statistics program prints", "statement": "Take two executions of a statistics program on the same machine, with the same random numbers in each thread but any two schedules, that come to their ends. They list the same results, perhaps in another order. The averaged convergence has the same number of entries, with values at the same iterations. Run count, success rate and average call count are the same, rounding included. If one of them prints its report without panic, so does the other. The average goal, each entry of the averaged convergence and the standard deviation, where finite, differ by at most twice the rounding error of C83 and C84. They need not be equal: there is a program whose average depends on which thread is first. For genetic-rosenbrock-statistics this is under the condition that each single run ends.", "quantifier": "all pairs of schedules, numbers of processors, platforms, random generators, seeds, build profiles", "why_tests_cant": "a test compares a few schedules that happen to occur; the claim is about each pair of interleavings, and floating-point sums do depend on the order", "anchors": ["optlib/examples/particleswarm-schwefel-statistics.rs: main", "optlib/examples/particleswarm-schwefel-statistics-full.rs: main", "optlib/examples/particleswarm-schwefel-statistics-inertia.rs: main", "optlib/examples/particleswarm-rastrigin-statistics-inertia.rs: main", "optlib/examples/particleswarm-rosenbrock-statistics.rs: main", "optlib/examples/genetic-schwefel-statistics.rs: main", "optlib/examples/genetic-rosenbrock-statistics.rs: main", "optlib/src/tools/statistics/mod.rs: unite", "optlib/src/tools/statistics/mod.rs: get_average_goal", "optlib/src/tools/statistics/mod.rs: get_average_convergence"]}
{"id": "C118", "title": "The statistics respond to better results and larger tolerances as they should", "statement": "All of this as floating-point numbers, rounding included, for up to 2^53 runs. A predicate that accepts more gives a success rate that is not smaller; in particular a larger tolerance of the goal or of the coordinates does. The success rate of united statistics lies between those of the parts. If each run has a finite goal not greater than that of the corresponding run (and fails where that fails), the average goal is not greater, and the same holds for each entry of the averaged convergence. The average call count lies between the least and the greatest count. (The average goal need not lie between the least and the greatest goal: that of three times 0.1 is greater than 0.1.)", "quantifier": "all result lists, convergence tables, call counts, predicates, tolerances, united statistics", "why_tests_cant": "monotonicity is about all pairs of lists of any length, with every rounding of the sums and quotients", "anchors": ["optlib/src/tools/statistics/mod.rs: get_success_rate", "optlib/src/tools/statistics/mod.rs: get_predicate_success_goal", "optlib/src/tools/statistics/mod.rs: get_predicate_success_vec_solution", "optlib/src/tools/statistics/mod.rs: unite", "optlib/src/tools/statistics/mod.rs: get_average_goal", "optlib/src/tools/statistics/mod.rs: get_average_convergence", "optlib/src/tools/statistics/mod.rs: get_average_call_count"]}
{"id": "C119", "title": "What the genetic operators do on average", "statement": "Let all sequences of draws be equally likely. BitwiseMutation with k changes of a gene of w bits changes w/2 (1 - (1 - 2/w)^k) bits on average: one for k = 1, more than one but less than k for k > 1, since a bit may be flipped back. CrossBitwise returns a child that differs from the first parent in sum of (w - 1 - j) / (w - 1) bits on average and from the second in sum of j / (w - 1), the sums over the bits j (0 is the lowest) in which the parents differ: in the high bits the child is nearer to the first parent. Tournament chooses an individual families * partners * s times on average, where s is its chance to be chosen for one place (C91). RandomPairing chooses every individual, whatever its fitness is, 2 * (n div 2) / n times on average, n the size of the population: once if n is even. VecMutation with a mutation that changes every gene changes n times the chance of C93 genes on average, n the length of the chromosome. None of them fails on any sequence of draws, and each takes the same number of draws always.", "quantifier": "all genes, formats, numbers of changes, parents, build profiles, populations, individuals, numbers of families, partners and rounds, chromosomes, probabilities", "why_tests_cant": "a mean value is a sum over all sequences of draws; a test sees a few of them", "anchors": ["optlib/src/genetic/mutation/mod.rs: BitwiseMutation, VecMutation", "optlib/src/genetic/cross/mod.rs: CrossBitwise", "optlib/src/genetic/pairing/mod.rs: Tournament::get_pairs, RandomPairing::get_pairs"]}
{"id": "C120", "title": "Where a particle is drawn on average, and how much it is scattered", "statement": "Compute without rounding and let each random number of a velocity calculator be one of m equally likely values with the mean r. Then the mean of the new velocity is, coordinate by coordinate, v + phi_p r (p - x) + phi_g r (g - x) for ClassicVelocityCalculator (x the position, v the velocity, p the particle's own best position, g that of the swarm), the same times xi for CanonicalVelocityCalculator, the same with w v instead of v for InertiaVelocityCalculator, and for NegativeReinforcement xi (v + r (the three best positions' pulls - the three worst positions' pulls)), each pull weighted by its own factor. The variance of a coordinate of the new velocity is q ((phi_p (p - x))^2 + (phi_g (g - x))^2), q the variance of the values, whatever the velocity and the inertia weight are; with a xi times xi^2, and for NegativeReinforcement with all six pulls: the random numbers of different pulls are independent. The calculator succeeds whatever the draws are, and takes 2 draws per coordinate (6 for NegativeReinforcement). If the values are evenly spread from 0 to 1, both included, up to d, then r is 1/2 up to d; if they are k / (m - 1) exactly, then r = 1/2 and q = (m + 1) / (12 (m - 1)).", "quantifier": "all particles and swarms of one dimension with a best particle (for NegativeReinforcement also a worst one), factors, inertia weights, finite sets of possible draws", "why_tests_cant": "a mean value is a sum over all sequences of draws, of which there are m^(2 d); a test sees a few of them", "anchors": ["optlib/src/particleswarm/velocitycalc/mod.rs: ClassicVelocityCalculator, CanonicalVelocityCalculator, InertiaVelocityCalculator, NegativeReinforcement"]}
{"id": "C121", "title": "Over flat ground the swarm settles, circles or runs away on average", "statement": "Compute without rounding, let each random number of a velocity calculator be one of m equally likely values with the mean r > 0, and call find_min of a particle swarm on a goal that is the same everywhere, with any start points and velocities, without hooks and loggers, and MaxIterations t. The call succeeds whatever the draws are. The mean position of each particle after it tends, as t grows, to (phi_p s + phi_g s1) / (phi_p + phi_g), where s is the particle's own start point and s1 the start point of the first particle, for CanonicalVelocityCalculator with any accepted parameters, and for InertiaVelocityCalculator with a constant weight 0 <= w < 1 as long as 0 < (phi_p + phi_g) r < 2 (1 + w). Exceptions: above this bound, with particles that start at rest, the distance of the mean position from that point grows at least as fast as ((phi_p + phi_g) r - 1 - 2 w)^t, a base greater than 1, unless it is 0; and with ClassicVelocityCalculator and 0 < (phi_p + phi_g) r < 4 the mean position stays within a bound but does not converge to anything, unless the particle starts at rest on that point.", "quantifier": "all start points and velocities, dimensions, sizes of the swarm, values of the goal (NaN too), numbers of iterations, finite sets of possible draws, factors within the stated bounds", "why_tests_cant": "a limit over the number of iterations of a mean over all sequences of draws: for t iterations of n particles with d coordinates there are m^(2 d n t) of them", "anchors": ["optlib/src/particleswarm/mod.rs: ParticleSwarmOptimizer, Swarm, Particle", "optlib/src/particleswarm/velocitycalc/mod.rs: ClassicVelocityCalculator, CanonicalVelocityCalculator, InertiaVelocityCalculator, ConstInertia", "optlib/src/tools/stopchecker/mod.rs: MaxIterations"]}
{"id": "C122", "title": "Over flat ground a swarm never comes to rest", "statement": "In the setting of C121 (no rounding, a goal that is the same everywhere, MaxIterations t, no hooks and loggers, each random number one of m equally likely values), let q be the variance of these values. After each t >= 1 iterations the mean square of each component of a particle's velocity is at least q (phi_p phi_g)^2 / (phi_p^2 + phi_g^2) (s - s1)^2, where s and s1 are this coordinate of the start points of the particle and of the first particle, for ClassicVelocityCalculator and InertiaVelocityCalculator, whatever its inertia weights are, and xi^2 times this for CanonicalVelocityCalculator. So a particle that starts elsewhere than the first one keeps moving by a distance that does not shrink to 0 in the mean square, even where its mean position converges by C121.", "quantifier": "all start points and velocities, dimensions, sizes of the swarm, values of the goal (NaN too), numbers of iterations, finite sets of possible draws, factors and weights", "why_tests_cant": "a lower bound for all numbers of iterations, of a mean over all sequences of draws", "anchors": ["optlib/src/particleswarm/mod.rs: ParticleSwarmOptimizer, Swarm, Particle", "optlib/src/particleswarm/velocitycalc/mod.rs: ClassicVelocityCalculator, CanonicalVelocityCalculator, InertiaVelocityCalculator"]}
