{"id": "C01", "title": "CList behaves as a bounded deque", "statement": "Starting from an empty CList of max_length L >= 2, any sequence of append_/push_, appendleft_, pop_, popleft_, set_, add_ (and the other in-place modifications), get, length and clear calls, with values of the declared shape and indices between -L and L-1, returns what a bounded double-ended queue of capacity L would return. Adding to a full list and removing from an empty list raise IndexError and leave the contents unchanged.", "quantifier": "every capacity L >= 2, every element type, every finite history of operations", "why_tests_cant": "ring-buffer wrap-around bugs only show on particular histories; there are infinitely many histories and capacities", "anchors": ["src/evotorch/tools/structures.py:CList", "src/evotorch/tools/structures.py:CList.append_", "src/evotorch/tools/structures.py:CList.pop_", "src/evotorch/tools/structures.py:CList.get"]}
{"id": "C02", "title": "CList batch items are isolated", "statement": "In a batched CList, append_, appendleft_, pop_, popleft_, set_ and the in-place modifications called with a where-mask change exactly the batch items whose mask is True, and each batch item evolves exactly as a separate unbatched list fed only with the operations that selected it.", "quantifier": "every batch size, mask sequence and operation history", "why_tests_cant": "interference needs particular combinations of masks and per-item states", "anchors": ["src/evotorch/tools/structures.py:CList", "src/evotorch/tools/structures.py:do_where"]}
{"id": "C03", "title": "CList rejects out-of-range indices", "statement": "get and set_ accept an index k of a CList holding n elements only when -n <= k < n; every other index raises IndexError (documented behaviour of verify=True).", "quantifier": "every capacity, every list state and every integer index", "why_tests_cant": "only a few of the out-of-range indices slip through, and only for some begin positions", "anchors": ["src/evotorch/tools/structures.py:CList._get_underlying_key", "src/evotorch/tools/structures.py:CList._is_underlying_key_valid"]}
{"id": "C04", "title": "CMemory reads return the last write", "statement": "For any history of masked and unmasked set_ calls, CMemory.get(key) returns, for each batch item, the value of the last write that addressed that key and that item (or the initial fill), and writes to one key or item never change another. Keys outside the declared range raise KeyError and change nothing.", "quantifier": "every key range, key offset, batch size, mask and write history", "why_tests_cant": "histories, masks and key layouts are unbounded", "anchors": ["src/evotorch/tools/structures.py:CMemory", "src/evotorch/tools/structures.py:CMemory.get", "src/evotorch/tools/structures.py:CMemory.set_"]}
{"id": "C05", "title": "CMemory in-place arithmetic means what it says", "statement": "add_, subtract_, multiply_, divide_ and add_circular_ replace the addressed value v by v+x, v-x, v*x, v/x and (v+x) mod m respectively, where the mask (if any) is True, and leave all else unchanged, with and without a mask, for numeric and boolean data types.", "quantifier": "every memory content, operand, mask and operation", "why_tests_cant": "each combination of operation, data type and mask is a separate branch and must hold on all values", "anchors": ["src/evotorch/tools/structures.py:CMemory.add_", "src/evotorch/tools/structures.py:CMemory.multiply_", "src/evotorch/tools/structures.py:CMemory.divide_", "src/evotorch/tools/structures.py:CMemory.add_circular_"]}
{"id": "C06", "title": "CDict behaves as a dictionary", "statement": "After clear(), any history of set_ and clear() calls (in which the keys given for batch items left out by a mask are within the declared range) makes contains(k) true exactly for keys set since the last clear, get(k) returns the last value set for present keys, and get(k, default=d) returns d exactly for missing keys.", "quantifier": "every key range, batch size, mask and operation history", "why_tests_cant": "dictionary laws quantify over all histories", "anchors": ["src/evotorch/tools/structures.py:CDict", "src/evotorch/tools/structures.py:CDict.get", "src/evotorch/tools/structures.py:CDict.contains", "src/evotorch/tools/structures.py:CDict.clear"]}
{"id": "C07", "title": "CBag samples without replacement", "statement": "After pushing values into a CBag and popping, the popped values together with the ones left form exactly the multiset that was pushed, for every outcome of the random shuffle; pushing after the first pop is refused until the bag is cleared.", "quantifier": "every pushed sequence, shuffle outcome, number of pops and batch size", "why_tests_cant": "the shuffle is random and the push histories unbounded", "anchors": ["src/evotorch/tools/structures.py:CBag", "src/evotorch/tools/structures.py:CBag.push_", "src/evotorch/tools/structures.py:CBag.pop_", "src/evotorch/tools/structures.py:CBag._shuffle"]}
{"id": "C08", "title": "split_workload is a fair partition", "statement": "split_workload(w, n) returns n non-negative integers that sum to w, differ by at most one, with the larger ones first.", "quantifier": "all workloads w >= 0 and worker counts n >= 1", "why_tests_cant": "two unbounded integers", "anchors": ["src/evotorch/tools/misc.py:split_workload"]}
{"id": "C09", "title": "SolutionBatch.split partitions the batch", "statement": "The pieces produced by SolutionBatch.split(num_pieces) or split(max_size=m) are consecutive, disjoint and cover the batch in order; num_pieces pieces have sizes differing by at most one, max_size pieces never exceed m; indices_of(i) names the rows of piece i.", "quantifier": "all batch lengths, piece counts and size limits", "why_tests_cant": "unbounded sizes", "anchors": ["src/evotorch/core.py:SolutionBatchPieces", "src/evotorch/core.py:SolutionBatch.split"]}
{"id": "C10", "title": "Parallel evaluation is schedule-independent", "statement": "When a batch is evaluated by remote actors, every solution ends with exactly the evaluation result of its own decision values, whichever actor evaluates which piece and in whichever order the pieces complete; the result equals sequential evaluation.", "quantifier": "all batches, splits and completion orders of the pieces", "why_tests_cant": "completion orders are chosen by the scheduler", "anchors": ["src/evotorch/core.py:Problem._evaluate_all", "src/evotorch/core.py:SolutionBatchPieces.indices_of"]}
{"id": "C11", "title": "best and worst track the extremes of everything evaluated", "statement": "After any history of evaluations, status['best'] of each objective is a solution that was evaluated, whose evaluation is not NaN-beaten by any evaluated solution (no evaluated solution is strictly better), and it never gets worse over time; symmetric for worst.", "quantifier": "all histories of evaluated batches, all objective senses and counts", "why_tests_cant": "an invariant over all evaluation histories including NaN evaluations", "anchors": ["src/evotorch/core.py:Problem._get_best_and_worst", "src/evotorch/core.py:Problem._after_eval"]}
{"id": "C12", "title": "Solution comparison is a strict order consistent with the sense", "statement": "is_better is irreflexive, asymmetric and transitive, is_worse is its converse, compare_solutions returns a positive, negative or zero number consistently with them, for minimisation and maximisation.", "quantifier": "all pairs and triples of evaluated solutions and both senses", "why_tests_cant": "quantifies over all triples of real evaluations", "anchors": ["src/evotorch/core.py:Problem.compare_solutions", "src/evotorch/core.py:Problem.is_better", "src/evotorch/core.py:Problem.is_worse"]}
{"id": "C13", "title": "Evaluations never outlive the values they describe", "statement": "In any history of operations on a SolutionBatch through set_values, access_values, set_evals, forget_evals, take, concat and problem.evaluate, a solution reported as evaluated carries the evaluation of its current decision values.", "quantifier": "all operation histories on all batches", "why_tests_cant": "stale evaluation results appear only after particular histories", "anchors": ["src/evotorch/core.py:SolutionBatch.set_values", "src/evotorch/core.py:SolutionBatch.access_values", "src/evotorch/core.py:SolutionBatch.set_evals", "src/evotorch/core.py:SolutionBatch.forget_evals", "src/evotorch/core.py:Solution.set_values"]}
{"id": "C14", "title": "set_evals writes exactly the requested evaluations", "statement": "set_evals with a vector (single objective), a matrix of evaluations, or evaluations plus eval data writes these numbers to the addressed rows and nothing else; malformed shapes are refused and leave the batch unchanged.", "quantifier": "all batch sizes, objective counts, eval data lengths and input shapes", "why_tests_cant": "shape space is unbounded", "anchors": ["src/evotorch/core.py:SolutionBatch.set_evals", "src/evotorch/core.py:Solution.set_evals"]}
{"id": "C15", "title": "argsort, argbest, argworst, take_best select by fitness", "statement": "For a single objective, argsort is a permutation ordering the batch from best to worst for either sense; argbest/argworst return indices of extreme solutions; take_best(n) returns n solutions none of which is worse than one left out.", "quantifier": "all batches of real evaluations, both senses and all n", "why_tests_cant": "unbounded batches with arbitrary ties", "anchors": ["src/evotorch/core.py:SolutionBatch.argsort", "src/evotorch/core.py:SolutionBatch.argbest", "src/evotorch/core.py:SolutionBatch.argworst", "src/evotorch/core.py:SolutionBatch.take_best"]}
{"id": "C16", "title": "Pareto ranks are non-dominated fronts", "statement": "The Pareto rank computed for a solution is 0 exactly when no solution dominates it, and r exactly when it becomes non-dominated after removing ranks below r; the ranking terminates and ranks every solution. The fronts returned by arg_pareto_sort, with or without crowd sorting, are those of ranks 0, 1, 2, ..., none of them empty, and list every solution once.", "quantifier": "all populations, objective counts and senses (finite evaluations)", "why_tests_cant": "domination structure of arbitrary point sets", "anchors": ["src/evotorch/core.py:_compute_pareto_ranks", "src/evotorch/core.py:_pareto_sort"]}
{"id": "C17", "title": "Multi-objective take_best keeps better fronts first", "statement": "For several objectives take_best(n) never leaves out a solution of a strictly better front than one it keeps, and keeps exactly n distinct rows.", "quantifier": "all populations, fronts and n", "why_tests_cant": "arbitrary point sets and sizes", "anchors": ["src/evotorch/core.py:SolutionBatch.take_best", "src/evotorch/core.py:_compute_pareto_ranks"]}
{"id": "C18", "title": "Crowding decides within the last front", "statement": "Within the front that only partly fits, multi-objective take_best prefers solutions with larger crowding distance (NSGA-II).", "quantifier": "all populations and n", "why_tests_cant": "the defect shows only for particular permutations", "anchors": ["src/evotorch/core.py:SolutionBatch.take_best", "src/evotorch/core.py:_crowding_distance_assignment", "src/evotorch/core.py:_compute_pareto_ranks"]}
{"id": "C19", "title": "Centered ranking", "statement": "rank(fitnesses, 'centered') assigns the n >= 2 solutions the evenly spaced weights from -0.5 to 0.5, each exactly once, a strictly better fitness always receiving a strictly larger weight; the weights sum to zero. 'linear' does the same on [0, 1].", "quantifier": "all fitness vectors of length n >= 2, both senses", "why_tests_cant": "arbitrary vectors with ties", "anchors": ["src/evotorch/tools/ranking.py:centered", "src/evotorch/tools/ranking.py:linear"]}
{"id": "C20", "title": "NES utilities", "statement": "rank(fitnesses, 'nes') sums to zero, is monotone in fitness, and the best half gets the non-truncated weights max(0, log(n/2+1) - log(k)) normalised by their sum.", "quantifier": "all fitness vectors and both senses", "why_tests_cant": "real-valued log weights for all n", "anchors": ["src/evotorch/tools/ranking.py:nes"]}
{"id": "C21", "title": "Normalized and raw ranking", "statement": "rank(fitnesses, 'normalized') has zero mean and unit (unbiased) variance whenever the fitnesses are not all equal and preserves fitness order; 'raw' returns the fitnesses negated when lower is better.", "quantifier": "all fitness vectors of length >= 2, both senses", "why_tests_cant": "real algebra for all vectors", "anchors": ["src/evotorch/tools/ranking.py:normalized", "src/evotorch/tools/ranking.py:raw"]}
{"id": "C22", "title": "GeneticAlgorithm keeps its population size and, if elitist, its best", "statement": "Every step of GeneticAlgorithm leaves exactly popsize solutions in the population; with elitist=True and a deterministic fitness the best fitness of the population never worsens, and no discarded candidate is better than a kept one (single objective).", "quantifier": "all populations, operators and step counts", "why_tests_cant": "invariant over all runs of a randomised algorithm", "anchors": ["src/evotorch/algorithms/ga.py:GeneticAlgorithm._step", "src/evotorch/algorithms/ga.py:ExtendedPopulationMixin"]}
{"id": "C23", "title": "Non-elitist GeneticAlgorithm keeps the best parents", "statement": "With elitist=False and fewer children than popsize, the remaining places are taken by the best evaluated parents.", "quantifier": "all populations, re_evaluate / re_evaluate_parents_first settings", "why_tests_cant": "depends on the interplay of configuration flags and evaluation state", "anchors": ["src/evotorch/algorithms/ga.py:GeneticAlgorithm._step", "src/evotorch/algorithms/ga.py:ExtendedPopulationMixin._make_extended_population"]}
{"id": "C24", "title": "SteadyStateGA operator registration protocol", "statement": "SteadyStateGA.use accepts at most one cross-over and one mutation operator, only before the first step and only if no operator list was given at construction; any other call raises and leaves the registered operators unchanged; step needs a cross-over or a mutation in place as documented.", "quantifier": "all sequences of use and step calls", "why_tests_cant": "protocol over all call histories", "anchors": ["src/evotorch/algorithms/ga.py:SteadyStateGA.use", "src/evotorch/algorithms/ga.py:SteadyStateGA"]}
{"id": "C25", "title": "Cosyne keeps its population size and elites", "statement": "Each Cosyne step leaves exactly popsize solutions, and with num_elites >= 1 and deterministic fitness the best fitness never worsens.", "quantifier": "all populations and parameters", "why_tests_cant": "invariant over all runs", "anchors": ["src/evotorch/algorithms/ga.py:Cosyne._step"]}
{"id": "C26", "title": "Operators respect problem bounds", "statement": "Every decision value produced by GaussianMutation, SimulatedBinaryCrossOver and PolynomialMutation lies within the problem's lower and upper bounds, whatever the random draws.", "quantifier": "all parents, bounds lb <= ub and random draws", "why_tests_cant": "random draws are unbounded reals", "anchors": ["src/evotorch/operators/base.py:Operator._respect_bounds", "src/evotorch/operators/real.py:GaussianMutation", "src/evotorch/operators/real.py:SimulatedBinaryCrossOver", "src/evotorch/operators/real.py:PolynomialMutation"]}
{"id": "C27", "title": "Multi-point cross-over only exchanges genes", "statement": "In OnePoint/TwoPoint/MultiPointCrossOver each child gene comes from the same position of one of its two parents, and the two siblings take complementary genes, so the pair of values at every position is preserved.", "quantifier": "all parents, lengths, numbers of points and random cut points", "why_tests_cant": "all random cut points and lengths", "anchors": ["src/evotorch/operators/real.py:MultiPointCrossOver"]}
{"id": "C28", "title": "Cross-over produces the requested number of children", "statement": "The number of tournaments is always even; with num_children = c the number of children is c (odd c is refused); without arguments it is the batch size rounded up to even; with a cross_over_rate it is an even number within one of rate*len.", "quantifier": "all batch sizes, num_children and rates", "why_tests_cant": "unbounded sizes and real rates", "anchors": ["src/evotorch/operators/base.py:CrossOver._compute_num_tournaments", "src/evotorch/operators/base.py:CrossOver._do_tournament"]}
{"id": "C29", "title": "Tournaments select the best contestant", "statement": "Each parent chosen by a tournament is a member of the population and no contestant of its tournament has a better fitness (single objective) or a better Pareto front (multi objective).", "quantifier": "all populations, tournament sizes and random draws", "why_tests_cant": "random contestant draws", "anchors": ["src/evotorch/operators/base.py:CrossOver._do_tournament"]}
{"id": "C30", "title": "SBX preserves the parents' mean", "statement": "Before clipping, the two children of SimulatedBinaryCrossOver satisfy child1 + child2 = parent1 + parent2 in every gene, and for u = 0.5 they equal the parents up to order.", "quantifier": "all parents, random draws and eta", "why_tests_cant": "real algebra for all draws", "anchors": ["src/evotorch/operators/real.py:SimulatedBinaryCrossOver"]}
{"id": "C31", "title": "CosynePermutation permutes within columns", "statement": "CosynePermutation permutes each gene position independently across the population: every column keeps its multiset of values and entries not selected for permutation keep their place.", "quantifier": "all populations and random draws", "why_tests_cant": "random masks and orders", "anchors": ["src/evotorch/operators/real.py:CosynePermutation"]}
{"id": "C32", "title": "CutAndSplice conserves material", "statement": "The two children of CutAndSplice consist of a prefix of one parent followed by a suffix of the other, and together they contain exactly the elements of both parents.", "quantifier": "all sequences and cut points", "why_tests_cant": "unbounded sequence lengths", "anchors": ["src/evotorch/operators/sequence.py:CutAndSplice"]}
{"id": "C33", "title": "MAPElites never loses an elite", "statement": "Once a cell of the MAPElites archive is filled it stays filled, its solution satisfies the cell's feature bounds, and its fitness never worsens over steps (deterministic, non-NaN, finite fitness).", "quantifier": "all archives, grids, operators and step counts", "why_tests_cant": "invariant over all runs", "anchors": ["src/evotorch/algorithms/mapelites.py:_best_solution_considering_feature", "src/evotorch/algorithms/mapelites.py:MAPElites._step"]}
{"id": "C34", "title": "MAPElites feature grids cover the space", "statement": "make_feature_grid yields num_bins consecutive closed intervals per feature from -inf to +inf, and their product: every feature vector lies in at least one cell, and in exactly one if it is on no bin edge.", "quantifier": "all bounds, bin counts and feature vectors", "why_tests_cant": "real feature space and unbounded bin counts", "anchors": ["src/evotorch/algorithms/mapelites.py:MAPElites.make_feature_grid"]}
{"id": "C35", "title": "ObjectArray views share, clones do not, read-only arrays refuse writes", "statement": "Writing through an ObjectArray or any of its slices is seen by all arrays sharing its storage at the same positions and by nobody else; clones are unaffected; a read-only view (and everything derived from it by indexing) refuses every write.", "quantifier": "all histories of slicing, read-only views, cloning and writing", "why_tests_cant": "aliasing behaviour over all histories", "anchors": ["src/evotorch/tools/objectarray.py:ObjectArray"]}
{"id": "C36", "title": "as_immutable gives deeply immutable equal values", "statement": "as_immutable(x) is built from immutable pieces only, has the same contents as x, is unaffected by later mutation of x, and mutable_copy(as_immutable(x)) equals x.", "quantifier": "all nested lists, tuples, sets, dicts, tensors and scalars", "why_tests_cant": "unbounded nesting", "anchors": ["src/evotorch/tools/immutable.py:as_immutable", "src/evotorch/tools/immutable.py:mutable_copy", "src/evotorch/tools/immutable.py:ImmutableDict"]}
{"id": "C37", "title": "deep_clone produces an independent isomorphic copy", "statement": "deep_clone(x) on a graph of lists, dicts and leaves terminates, preserves sharing and cycles, shares no mutable container with x, and reads back the same contents.", "quantifier": "all finite object graphs including cyclic and shared ones", "why_tests_cant": "arbitrary graphs", "anchors": ["src/evotorch/tools/cloning.py:deep_clone"]}
{"id": "C38", "title": "Hook accumulates results in order", "statement": "Calling a Hook calls each registered function once, in order, with the stored arguments followed by the call's; dictionary results are merged with later ones winning, list results concatenated, None ignored; mixing kinds raises TypeError.", "quantifier": "all hooks and result sequences", "why_tests_cant": "unbounded number of registered functions", "anchors": ["src/evotorch/tools/hook.py:Hook", "src/evotorch/tools/hook.py:Hook.__call__"]}
{"id": "C39", "title": "Status values are computed lazily, at most once per step, and never stale", "statement": "Each status entry is computed at most once between two status clearings, and after a step the status never returns a value computed before the step.", "quantifier": "all interleavings of status reads and steps", "why_tests_cant": "all read/step histories", "anchors": ["src/evotorch/algorithms/searchalgorithm.py:LazyReporter", "src/evotorch/algorithms/searchalgorithm.py:SearchAlgorithm.step"]}
{"id": "C40", "title": "run(n) is n steps and hooks fire in order", "statement": "run(n) performs exactly n steps, increments step_count by n, fires before-step, step, after-step and log hooks in this order once per step and the end-of-run hook once at the end if it is not empty.", "quantifier": "all n and hook contents", "why_tests_cant": "unbounded n", "anchors": ["src/evotorch/algorithms/searchalgorithm.py:SearchAlgorithm.step", "src/evotorch/algorithms/searchalgorithm.py:SearchAlgorithm.run"]}
{"id": "C41", "title": "Restart counting and IPOP growth", "statement": "Restart.num_restarts equals one plus the number of steps in which termination was detected; under IPOP the k-th restart builds an algorithm with the previous population size multiplied by popsize_multiplier (truncated).", "quantifier": "all termination histories and multipliers", "why_tests_cant": "all histories", "anchors": ["src/evotorch/algorithms/restarter/restart.py:Restart", "src/evotorch/algorithms/restarter/modify_restart.py:IPOP"]}
{"id": "C42", "title": "Loggers fire exactly at their interval", "statement": "A logger with interval m logs at steps m, 2m, 3m, ... (with after_first_step at 1, m+1, 2m+1, ...) and at no other step.", "quantifier": "all intervals, step counts", "why_tests_cant": "all run lengths", "anchors": ["src/evotorch/logging.py:Logger.__call__"]}
{"id": "C43", "title": "PicklingLogger's last save is never missing or duplicated", "statement": "With interval saving and an end-of-run save, after a run the newest saved generation is the last generation, and no generation is saved twice.", "quantifier": "all intervals and sequences of runs", "why_tests_cant": "all run histories", "anchors": ["src/evotorch/logging.py:PicklingLogger", "src/evotorch/logging.py:PicklingLogger._final_save"]}
{"id": "C44", "title": "modify_tensor honours its limits", "statement": "modify_tensor(original, target, lb, ub, max_change) returns for each element the value closest to the target inside [lb, ub] and inside original +- |original|*max_change, when these intersect; an upper bound is honoured always.", "quantifier": "all reals, bounds and ratios", "why_tests_cant": "real arithmetic over all inputs", "anchors": ["src/evotorch/tools/misc.py:modify_tensor"]}
{"id": "C45", "title": "Controlled stdev stays within limits over a whole run", "statement": "In distribution-based search with stdev_min/stdev_max/stdev_max_change, if the initial stdev is within [stdev_min, stdev_max] then after any number of updates with any gradients it stays within them, changes per update by at most the given ratio, and stays positive when it starts positive and stdev_max_change < 1.", "quantifier": "all gradient sequences and run lengths", "why_tests_cant": "all histories of real updates", "anchors": ["src/evotorch/algorithms/distributed/gaussian.py:GaussianSearchAlgorithm._update_distribution", "src/evotorch/tools/misc.py:modify_tensor"]}
{"id": "C46", "title": "Functional modify_vector honours its bounds", "statement": "modify_vector used by functional PGPE and CEM always returns a vector inside [lb, ub], and within the max_change band of the original whenever the original itself lies in [lb, ub].", "quantifier": "all vectors, bounds and ratios; all tell histories", "why_tests_cant": "real arithmetic over all inputs", "anchors": ["src/evotorch/tools/misc.py:modify_vector", "src/evotorch/algorithms/functional/funcpgpe.py:pgpe_tell", "src/evotorch/algorithms/functional/funccem.py:cem_tell"]}
{"id": "C47", "title": "Exponential stdev updates stay positive", "statement": "In SNES (ExpSeparableGaussian) and CMA-ES the stdev / step size remains strictly positive after any number of updates with any gradients.", "quantifier": "all gradients, learning rates and run lengths", "why_tests_cant": "all histories", "anchors": ["src/evotorch/distributions.py:ExpSeparableGaussian.update_parameters", "src/evotorch/algorithms/cmaes.py:CMAES.update_sigma"]}
{"id": "C48", "title": "XNES keeps its inverse transform exact", "statement": "Along any XNES run sigma_inv is the inverse of sigma, so to_local_coordinates(to_global_coordinates(z)) = z.", "quantifier": "all dimensions, gradients and run lengths", "why_tests_cant": "matrix identities for all sizes and histories", "anchors": ["src/evotorch/distributions.py:ExpGaussian.update_parameters", "src/evotorch/distributions.py:ExpGaussian.to_global_coordinates"]}
{"id": "C49", "title": "Antithetic sampling is symmetric", "statement": "Symmetric sampling (SymmetricSeparableGaussian, make_gaussian(symmetric=True)) produces consecutive pairs that are mirror images about the center; odd sample sizes are refused.", "quantifier": "all centers, stdevs, even sample sizes and noise draws", "why_tests_cant": "all draws", "anchors": ["src/evotorch/distributions.py:SymmetricSeparableGaussian", "src/evotorch/tools/misc.py:make_gaussian"]}
{"id": "C50", "title": "Symmetric gradient equals the plain gradient on antithetic samples", "statement": "On antithetic samples the mu gradient of SymmetricSeparableGaussian divided by the number of directions equals the mu gradient of SeparableGaussian divided by the number of solutions. With raw fitnesses it depends only on the odd part of the fitness about the center, and the sigma gradient only on the even part.", "quantifier": "all sample sizes, weights and noises", "why_tests_cant": "algebra for all sizes", "anchors": ["src/evotorch/distributions.py:SymmetricSeparableGaussian._compute_gradients", "src/evotorch/distributions.py:SeparableGaussian._compute_gradients"]}
{"id": "C51", "title": "CEM moves to the elites", "statement": "One CEM update with unit learning rate sets the center to the mean of the floor(popsize*parenthood_ratio) best samples and the (uncontrolled) stdev to their unbiased standard deviation; only best samples are used.", "quantifier": "all samples and fitnesses, both senses", "why_tests_cant": "arbitrary populations", "anchors": ["src/evotorch/distributions.py:SeparableGaussian._compute_gradients_via_parenthood_ratio", "src/evotorch/algorithms/functional/funccem.py:cem_tell"]}
{"id": "C52", "title": "ClipUp never exceeds its maximum speed", "statement": "With non-zero gradients, the velocity of ClipUp (class and functional) never exceeds max_speed in norm, over any gradient history, so no step moves the center further than max_speed.", "quantifier": "all gradient histories, dimensions, momentum and step sizes", "why_tests_cant": "all histories of real vectors", "anchors": ["src/evotorch/optimizers.py:ClipUp.ascent", "src/evotorch/optimizers.py:ClipUp._clip", "src/evotorch/algorithms/functional/funcclipup.py:clipup_tell"]}
{"id": "C53", "title": "Object-oriented and functional optimisers agree", "statement": "For the same settings and gradient history, ClipUp and SGD classes and their functional counterparts produce the same sequence of centers.", "quantifier": "all gradient histories", "why_tests_cant": "all histories", "anchors": ["src/evotorch/optimizers.py:ClipUp", "src/evotorch/algorithms/functional/funcclipup.py", "src/evotorch/optimizers.py:SGD", "src/evotorch/algorithms/functional/funcsgd.py"]}
{"id": "C54", "title": "ClipUp parameter groups validate updates", "statement": "Assigning lr, max_speed or momentum through a ClipUp parameter group refuses values outside their valid ranges.", "quantifier": "all assigned values", "why_tests_cant": "all reals", "anchors": ["src/evotorch/optimizers.py:ClipUpParameterGroup.__setitem__"]}
{"id": "C55", "title": "Distributed gradients equal the pooled weighted average", "statement": "In distributed mode, with the vector gradients of PGPE, SNES and CEM, the combined gradient is the average of the actors' gradients weighted by their numbers of solutions (or uniformly), the weights sum to one and the result does not depend on the order in which actors answer.", "quantifier": "all numbers of actors, gradients and answer orders", "why_tests_cant": "answer order is decided by the scheduler", "anchors": ["src/evotorch/algorithms/distributed/gaussian.py:GaussianSearchAlgorithm._step_distributed"]}
{"id": "C56", "title": "Adaptive population loop stops as documented", "statement": "With num_interactions set, a non-distributed step keeps adding sub-populations of popsize until more than num_interactions interactions were made or popsize_max is reached; it terminates, and the final population is the concatenation of everything sampled.", "quantifier": "all interaction counts per evaluation", "why_tests_cant": "interaction counts are produced by the environment", "anchors": ["src/evotorch/algorithms/distributed/gaussian.py:GaussianSearchAlgorithm._step_non_distributed"]}
{"id": "C57", "title": "RunningNorm equals batch statistics", "statement": "After any mix of single, batched and merged updates (in which the first one is not an empty batch, for which see C58), RunningNorm's count, mean and stdev equal those of the multiset of all observations, regardless of order and grouping; the variance never falls below min_variance.", "quantifier": "all observation histories, groupings and merge orders", "why_tests_cant": "all partitions of all histories", "anchors": ["src/evotorch/neuroevolution/net/runningnorm.py:RunningNorm.update", "src/evotorch/neuroevolution/net/runningnorm.py:RunningNorm.stats"]}
{"id": "C58", "title": "Masked observations do not count", "statement": "RunningNorm.update with a mask has the effect of updating with only the rows whose mask is True, and leaves the object usable for later updates.", "quantifier": "all batches and masks (including NaN rows and all-False masks)", "why_tests_cant": "masks and NaN rows", "anchors": ["src/evotorch/neuroevolution/net/runningnorm.py:RunningNorm.update"]}
{"id": "C59", "title": "Observation statistics are synchronised without loss or double counting", "statement": "After each parallel evaluation the main problem's observation statistics equal those of all observations ever collected by any actor, each counted once, whatever the distribution of work; interaction and episode counters are the totals.", "quantifier": "all rounds, actors and observation assignments", "why_tests_cant": "work distribution is decided by the scheduler", "anchors": ["src/evotorch/neuroevolution/gymne.py:GymNE._use_sync_data_from_actors", "src/evotorch/neuroevolution/vecgymne.py:VecGymNE._use_sync_data_from_actors", "src/evotorch/core.py:Problem._sync_after"]}
{"id": "C60", "title": "expects_ndim batches right-aligned", "statement": "A function decorated with expects_ndim, given tensors with extra leading dimensions, equals elementwise application over the broadcast (right-aligned) batch; every argument without a batch dimension is shared; too few dimensions raise ValueError.", "quantifier": "all functions, numbers of arguments and batch shapes", "why_tests_cant": "unbounded ranks and shapes", "anchors": ["src/evotorch/decorators.py:expects_ndim", "src/evotorch/decorators.py:rowwise"]}
{"id": "C61", "title": "Network strings build the written pipeline", "statement": "str_to_net on 'A >> B >> C' builds the modules in the written order, flat, with the given arguments and constants; unknown names and unsupported syntax raise NetParsingError.", "quantifier": "all expressions of the network language", "why_tests_cant": "unbounded expressions", "anchors": ["src/evotorch/neuroevolution/net/parser.py:str_to_net", "src/evotorch/neuroevolution/net/parser.py:_process_expr"]}
{"id": "C62", "title": "Flat parameter vectors round-trip", "statement": "For a network with parameters, parameter_vector(net) after fill_parameters(net, v) is v when the length matches; the flat-parameter functional module assigns each parameter its own consecutive slice, covering the vector exactly; wrong lengths are refused.", "quantifier": "all parameter shapes and vectors", "why_tests_cant": "arbitrary networks", "anchors": ["src/evotorch/neuroevolution/net/misc.py:fill_parameters", "src/evotorch/neuroevolution/net/misc.py:parameter_vector", "src/evotorch/neuroevolution/net/functional.py:ModuleExpectingFlatParameters"]}
{"id": "C63", "title": "Layered recurrent state is threaded per layer", "statement": "MultiLayered feeds layer i its own previous state in every time step; StatefulModule around a module which returns tensors or tuples hides the state so that after reset a sequence of calls equals the explicit state-passing computation.", "quantifier": "all layer stacks and input sequences", "why_tests_cant": "all sequences", "anchors": ["src/evotorch/neuroevolution/net/multilayered.py:MultiLayered", "src/evotorch/neuroevolution/net/statefulmodule.py:StatefulModule"]}
{"id": "C64", "title": "Vectorised episode accounting", "statement": "VecGymNE's fitness of each solution is the average return of exactly its first num_episodes episodes, regardless of how long other environments run, including alive bonus and reward decrease; the interaction counter counts active steps only.", "quantifier": "all reward/termination traces of all environments; alive bonus schedules with t0 <= t1", "why_tests_cant": "environment traces are unbounded", "anchors": ["src/evotorch/neuroevolution/vecgymne.py:VecGymNE._evaluate_subbatch", "src/evotorch/neuroevolution/net/vecrl.py:SyncVectorEnv.step"]}
{"id": "C65", "title": "Alive bonus schedules agree", "statement": "The alive bonus (t0, t1, b) adds nothing before t0, a linearly growing fraction of b between t0 and t1 and b from t1 on, per episode time step, in GymNE (wrapper) and VecGymNE alike.", "quantifier": "all schedules with t0 <= t1 and episode traces", "why_tests_cant": "all traces", "anchors": ["src/evotorch/neuroevolution/net/rl.py:AliveBonusScheduleWrapper", "src/evotorch/neuroevolution/vecgymne.py:VecGymNE._evaluate_subbatch"]}
{"id": "C66", "title": "SupervisedNE uses each minibatch source cyclically", "statement": "get_minibatch goes through the data loader and starts over when it is exhausted; with common_minibatch all solutions of an evaluation are scored on the same minibatches and the loss is the average over num_minibatches.", "quantifier": "all loaders and request counts", "why_tests_cant": "unbounded requests", "anchors": ["src/evotorch/neuroevolution/supervisedne.py:SupervisedNE"]}
{"id": "C67", "title": "Constraint violations are exact and non-negative", "statement": "violation(lhs, op, rhs) is zero exactly when the constraint holds, otherwise the positive amount by which it fails; penalty with sign '-' / '+', non-negative multipliers and a positive exponent is zero for satisfied constraints and never rewards a violation.", "quantifier": "all real pairs and operators", "why_tests_cant": "real arithmetic", "anchors": ["src/evotorch/tools/constraints.py:violation", "src/evotorch/tools/constraints.py:penalty", "src/evotorch/tools/constraints.py:log_barrier"]}
{"id": "C68", "title": "Actor seeds are reproducible and distinct", "statement": "Seeds given to different actors and to the different generators inside an actor are all distinct (fewer than 2^32 of them) and depend only on the base seed and the index.", "quantifier": "all base seeds and actor counts", "why_tests_cant": "modular wrap-around near 2^32", "anchors": ["src/evotorch/core.py:Problem._parallelize"]}
{"id": "C69", "title": "Integer uniform sampling stays in range", "statement": "make_uniform with an integer dtype returns only integers in [lb, ub] and can return each of them; make_randint(n) returns integers in [0, n).", "quantifier": "all bounds and raw random words", "why_tests_cant": "all raw random outputs", "anchors": ["src/evotorch/tools/misc.py:make_uniform", "src/evotorch/tools/misc.py:make_randint"]}
{"id": "C70", "title": "Objective indices are validated", "statement": "obj_index arguments accept exactly -m..m-1 for m objectives and normalise negatives as Python does; everything else is refused (Problem and SolutionBatch alike).", "quantifier": "all objective counts and integers", "why_tests_cant": "boundary values for all m", "anchors": ["src/evotorch/core.py:Problem.normalize_obj_index", "src/evotorch/core.py:SolutionBatch._normalize_obj_index"]}
{"id": "C71", "title": "CMA-ES recombination is a convex combination of the best samples", "statement": "With c_m = 1 the new CMA-ES center is the convex combination of the mu best samples with positive weights decreasing in rank and summing to one.", "quantifier": "all populations, fitnesses, center/stdev and dimensions", "why_tests_cant": "all populations", "anchors": ["src/evotorch/algorithms/cmaes.py:CMAES.update_m", "src/evotorch/algorithms/cmaes.py:CMAES.get_population_weights"]}
{"id": "C72", "title": "CMA-ES stdev limits", "statement": "With stdev_min/stdev_max, after each step the per-coordinate stdev sigma*sqrt(C_ii) lies in [stdev_min, stdev_max], and the covariance stays decomposable.", "quantifier": "all covariances and limits", "why_tests_cant": "all reals", "anchors": ["src/evotorch/algorithms/cmaes.py:_limit_stdev"]}
{"id": "C73", "title": "Read-only tensors cannot be modified in place", "statement": "No in-place method, operator, item assignment or out= argument on a ReadOnlyTensor changes its storage, and tensors derived from it that share its storage stay read-only.", "quantifier": "all method names and derivation chains", "why_tests_cant": "all method names and histories", "anchors": ["src/evotorch/tools/readonlytensor.py:ReadOnlyTensor"]}
{"id": "C74", "title": "sample_and_compute_gradients pools sub-populations correctly", "statement": "Problem.sample_and_compute_gradients without splitting, or split over actors in any way, samples sub-populations whose sizes add up to the requested popsize (each of exactly subbatch_size solutions, which must divide the popsize; or num_subbatches fair shares; or one fair share per actor), and reports num_solutions that add up to it in whatever order the actors answer; with num_interactions the total is at least the popsize. (ensure_even_popsize: see C75.)", "quantifier": "all popsizes and actor counts", "why_tests_cant": "unbounded sizes", "anchors": ["src/evotorch/core.py:Problem.sample_and_compute_gradients", "src/evotorch/core.py:Problem._sample_and_compute_gradients"]}
{"id": "C75", "title": "ensure_even_popsize and popsize validation in gradient sampling", "statement": "With ensure_even_popsize every sub-population requested from an actor is even, is its share or one more, and the thresholds given to the actors cover the requested ones; on a problem that is not parallelised an odd popsize is refused, as documented.", "quantifier": "all popsizes and actor counts", "why_tests_cant": "unbounded sizes", "anchors": ["src/evotorch/core.py:Problem.sample_and_compute_gradients", "src/evotorch/algorithms/distributed/gaussian.py:PGPE"]}
{"id": "C76", "title": "Crowding distances are those of NSGA-II", "statement": "In the crowding-distance assignment used by take_best and arg_pareto_sort, a solution that comes first or last in the order of some objective has infinite distance; any other solution has the sum over the objectives of the gap between its two neighbours divided by the range of the objective.", "quantifier": "every front, every number of objectives, every outcome of sorting ties", "why_tests_cant": "sizes and values are unbounded", "anchors": ["src/evotorch/core.py:_crowding_distance_assignment"]}
{"id": "C77", "title": "The covariance reported by the XNES distribution is that of its samples", "statement": "ExpGaussian.cov is the covariance matrix of the solutions that sample() draws, at creation and after any updates.", "quantifier": "all dimensions, initial standard deviations and update histories", "why_tests_cant": "the matrices differ only after non-commuting updates", "anchors": ["src/evotorch/distributions.py:ExpGaussian.cov", "src/evotorch/distributions.py:ExpGaussian.sample", "src/evotorch/distributions.py:ExpGaussian.update_parameters"]}
{"id": "C78", "title": "Relative entropy is a divergence", "statement": "SeparableGaussian.relative_entropy of two distributions with positive standard deviations is never negative and is zero exactly when the two distributions are equal.", "quantifier": "all dimensions, centers and positive standard deviations", "why_tests_cant": "a real inequality for all inputs", "anchors": ["src/evotorch/distributions.py:SeparableGaussian.relative_entropy"]}
{"id": "C79", "title": "Initial standard deviations are the same for class-based and functional algorithms", "statement": "Exactly one of stdev_init and radius_init must be given; a radius r gives equal standard deviations whose norm is |r|, a scalar is repeated, a vector must have the solution length; class-based and functional algorithms make the same vector of the same arguments.", "quantifier": "all solution lengths, radii, scalars and vectors", "why_tests_cant": "all sizes and reals", "anchors": ["src/evotorch/tools/misc.py:to_stdev_init", "src/evotorch/tools/misc.py:stdev_from_radius", "src/evotorch/algorithms/functional/misc.py:_get_stdev_init"]}
{"id": "C80", "title": "Every distribution-based algorithm can be run in distributed mode", "statement": "A step of PGPE, SNES, CEM or XNES in distributed mode on a parallelised problem combines the actors' gradients and updates the distribution without an error.", "quantifier": "all gradients and numbers of actors", "why_tests_cant": "needs a running cluster", "anchors": ["src/evotorch/algorithms/distributed/gaussian.py:GaussianSearchAlgorithm._step_distributed", "src/evotorch/distributions.py:ExpGaussian._compute_gradients"]}
{"id": "C81", "title": "The mean evaluation reported by a distributed step is the mean over all solutions", "statement": "After a distributed step the status item mean_eval is the mean of the evaluations of all solutions sampled by all actors.", "quantifier": "all popsizes, numbers of actors and evaluations", "why_tests_cant": "needs a running cluster; fails only for unusual shares", "anchors": ["src/evotorch/algorithms/distributed/gaussian.py:GaussianSearchAlgorithm._step_distributed", "src/evotorch/core.py:Problem._sample_and_compute_gradients"]}
{"id": "C82", "title": "CMA-ES covariance stays positive definite", "statement": "Whatever the options, population size, draws and evaluations, the covariance of a CMA-ES run stays positive definite, so that every step can decompose it.", "quantifier": "all options, dimensions, population sizes, draws, evaluations and run lengths", "why_tests_cant": "all histories", "anchors": ["src/evotorch/algorithms/cmaes.py:CMAES.update_C", "src/evotorch/algorithms/cmaes.py:CMAES.decompose_C"]}
{"id": "C83", "title": "CMA-ES accepts given learning rates", "statement": "CMAES can be created with each of its documented learning rates given as a number.", "quantifier": "all combinations of given learning rates", "why_tests_cant": "all combinations of optional arguments", "anchors": ["src/evotorch/algorithms/cmaes.py:CMAES.__init__"]}
{"id": "C84", "title": "Updating observation statistics leaves the caller's tensors alone", "statement": "Calling `update` on a RunningNorm with observations never modifies the tensors passed in, and what the caller later writes into those tensors does not change the collected statistics.", "quantifier": "all sequences of updates with single observations and batches, interleaved with writes by the caller into its own tensors", "why_tests_cant": "aliasing only shows for particular sequences (a first single observation followed by another update or an in-place write), and only when dtype and device already agree", "anchors": ["src/evotorch/neuroevolution/net/runningnorm.py:RunningNorm.update"]}
{"id": "C85", "title": "A vectorised environment behaves like its sub-environments driven alone", "statement": "SyncVectorEnv reports for each sub-environment what that environment reports when driven alone with the same actions and reset as soon as an episode ends; with num_episodes = n, after its n-th episode (whose last observation is reported as it is) it reports NaN rewards, dummy observations and terminated and truncated, for ever. Sub-environments do not influence each other.", "quantifier": "all sub-environments, all action sequences, all num_episodes", "why_tests_cant": "environment behaviours and episode lengths are unbounded", "anchors": ["src/evotorch/neuroevolution/net/vecrl.py:SyncVectorEnv.step", "src/evotorch/neuroevolution/net/vecrl.py:SyncVectorEnv.reset"]}
{"id": "C86", "title": "Unsupported or mismatching spaces are refused when an environment is built", "statement": "SyncVectorEnv accepts sub-environments only if their observation and action spaces are supported and match the first one's in kind and shape; GymNE refuses environments whose observation space is not a box or whose action space is neither a box nor discrete.", "quantifier": "all combinations of spaces", "why_tests_cant": "combinations of spaces are unbounded, and the failure shows only later, when actions of the wrong shape are used", "anchors": ["src/evotorch/neuroevolution/net/vecrl.py:SyncVectorEnv.__init__", "src/evotorch/neuroevolution/gymne.py:ensure_space_types"]}
{"id": "C87", "title": "Gaussian sampling is exact in its draws and symmetric on request", "statement": "make_gaussian returns center + stdev * z for the drawn z; with symmetric=True rows 2i and 2i+1 use the same draws with opposite signs, so they mirror each other around the center; an odd number of rows with symmetric=True, or only one of center and stdev, raises ValueError.", "quantifier": "all shapes, centers, deviations and draws", "why_tests_cant": "an example can only check some shapes and draws; the mirror relation must hold for every row pair", "anchors": ["src/evotorch/tools/misc.py:make_gaussian"]}
{"id": "C88", "title": "Elementwise layers compute what they say", "statement": "Clip gives the nearest value of its interval, Bin the nearer of its two bounds, Round the nearest multiple of a power of ten (ties to even), Slice the Python slice, Apply the named arithmetic operation; other operators are refused.", "quantifier": "all inputs and all constructor arguments (Bin: two different bounds)", "why_tests_cant": "unbounded inputs", "anchors": ["src/evotorch/neuroevolution/net/layers.py:Clip", "src/evotorch/neuroevolution/net/layers.py:Bin", "src/evotorch/neuroevolution/net/layers.py:Round", "src/evotorch/neuroevolution/net/layers.py:Slice", "src/evotorch/neuroevolution/net/layers.py:Apply"]}
{"id": "C89", "title": "Recurrent layers unroll the textbook recurrences", "statement": "RNN and LSTM, started without a hidden state and then fed the state they return, compute the Elman and LSTM recurrences from the zero state for every input sequence; the LSTM's hidden state stays in [-1, 1] and its cell state after t inputs in [-t, t].", "quantifier": "all sizes, parameters and input sequences of any length", "why_tests_cant": "unbounded sequences", "anchors": ["src/evotorch/neuroevolution/net/layers.py:RNN", "src/evotorch/neuroevolution/net/layers.py:LSTM"]}
{"id": "C90", "title": "Feed-forward networks are the composition of the listed layers", "statement": "FeedForwardNet has one linear layer per tuple, each taking the previous layer's size, with bias unless stated otherwise, and applies layers and activations in order; bad tuples and unknown activations are refused. StructuredControlNet adds a linear component and such a network with the given number of hidden layers.", "quantifier": "all numbers of layers, sizes, activations and parameters", "why_tests_cant": "unbounded numbers of layers (attribute names must not collide)", "anchors": ["src/evotorch/neuroevolution/net/layers.py:FeedForwardNet", "src/evotorch/neuroevolution/net/layers.py:StructuredControlNet"]}
{"id": "C91", "title": "LocomotorNet's clock counts forward passes since the last reset", "statement": "Each forward pass returns the linear component plus the sum of all sinusoids at time t, where t is the number of forward passes since the last reset or since construction.", "quantifier": "all histories of forward passes and resets", "why_tests_cant": "unbounded histories", "anchors": ["src/evotorch/neuroevolution/net/layers.py:LocomotorNet"]}
{"id": "C92", "title": "A problem's configuration is checked and completed as documented", "statement": "Problem(...) succeeds exactly when the arguments satisfy the documented requirements (numeric problems have a solution length and bounds which are scalars or vectors of that length; problems of dtype object have none of these and live on the cpu; every objective sense is 'min' or 'max'; `vectorized` is only given for an undecorated function; `num_subbatches` and `subbatch_size` are not both given), and then its attributes are the arguments with the documented defaults: dtype float32, evaluation dtype equal to a 16- or 64-bit float dtype and float32 otherwise, device cpu, initial bounds equal to the bounds.", "quantifier": "every combination of constructor arguments", "why_tests_cant": "the space of argument combinations is infinite and tests visit a handful", "anchors": ["src/evotorch/core.py:Problem.__init__", "src/evotorch/core.py:Problem.objective_sense", "src/evotorch/tools/misc.py:is_sequence"]}
{"id": "C93", "title": "The number of actors and their GPUs are what was asked for", "statement": "With the cpu as main device the number of actors is the given number, or the available CPUs ('max', 'num_cpus'), GPUs ('num_gpus') or the smaller of the two ('num_devices'), rounded up; a single actor becomes none; several actors are only accepted with the cpu as main device. The GPUs assigned to all actors together never exceed the available ones and equal them where they are shared. Conflicting requests are refused. With 'num_devices' and a GPU as main device no actors are created.", "quantifier": "every cluster (available CPUs and GPUs, integer or fractional or missing), every request and every main device", "why_tests_cant": "tests run on one machine with one set of resources", "anchors": ["src/evotorch/core.py:Problem.__init__"]}
{"id": "C94", "title": "Generated solutions lie within the initial bounds", "statement": "Every value produced by generate_values or generate_batch lies within the initial bounds of its column, whatever is drawn, and therefore within the strict bounds, in which all solutions must always reside; the new batch is unevaluated (all NaN, with room for all objectives and extra evaluation data); with center and stdev row i is center plus its draw times stdev, in mirrored pairs if symmetric; inconsistent arguments are refused.", "quantifier": "every problem, every number of solutions and every outcome of the random number generator", "why_tests_cant": "a test samples a few draws; a boundary value or a wrong column is hit with tiny probability", "anchors": ["src/evotorch/core.py:Problem.generate_values", "src/evotorch/core.py:Problem._fill", "src/evotorch/core.py:Problem.generate_batch", "src/evotorch/core.py:SolutionBatch.__init__"]}
{"id": "C95", "title": "Slices of a batch are views, selections are copies", "statement": "A slice of a SolutionBatch (and a single Solution) shows the corresponding rows of its source for ever: a modification of one is seen in the other. Batches made by index lists, take, cat or concat contain the selected rows as they were and are independent for ever: as long as no batch of the same origin is modified, its values and evaluations do not change.", "quantifier": "every history of creating, slicing, selecting, concatenating, modifying and evaluating batches", "why_tests_cant": "aliasing depends on the whole history of operations; tests check one pair of objects", "anchors": ["src/evotorch/core.py:SolutionBatch.__init__", "src/evotorch/core.py:SolutionBatch.take", "src/evotorch/core.py:SolutionBatch.concat", "src/evotorch/core.py:SolutionBatch.cat", "src/evotorch/core.py:Solution.__init__"]}
{"id": "C96", "title": "A batch behaves as a sequence of its solutions", "statement": "batch[i] is the i-th solution, negative indices count from the end, every other index raises IndexError, and iterating yields each solution once and in order.", "quantifier": "every batch and every integer index", "why_tests_cant": "boundary indices for every length", "anchors": ["src/evotorch/core.py:SolutionBatch.__getitem__", "src/evotorch/core.py:SolutionBatch.__iter__", "src/evotorch/core.py:Solution.__init__"]}
{"id": "C97", "title": "Utilities are higher for better solutions", "statement": "utility(obj) orders the solutions by quality whatever the sense of the objective, with infinities; unevaluated solutions are refused if check_nans; a ranking method receives the evaluations of that objective and its sense; utils() is the matrix of all objectives, with one row per solution, also for one objective.", "quantifier": "every batch, number of objectives, senses and evaluations", "why_tests_cant": "sign and orientation errors show only for particular senses and objective indices", "anchors": ["src/evotorch/core.py:SolutionBatch.utility", "src/evotorch/core.py:SolutionBatch.utils", "src/evotorch/core.py:SolutionBatch._get_objective_sign"]}
{"id": "C98", "title": "A callable evaluator evaluates every solution of a tensor of any shape", "statement": "For values of shape (..., L) the evaluator made from a problem returns a tensor of shape (...), whose element at every index is the chosen objective of the solution at that index; scalars, non-numeric problems, differing dtypes and invalid objective indices are refused.", "quantifier": "every number and size of batch dimensions, every fitness function", "why_tests_cant": "arbitrary numbers of batch dimensions cannot be enumerated", "anchors": ["src/evotorch/core.py:ProblemBoundEvaluator", "src/evotorch/core.py:Problem.make_callable_evaluator", "src/evotorch/core.py:Problem.normalize_obj_index"]}
{"id": "C99", "title": "A batch can be created like another", "statement": "SolutionBatch(problem, popsize=n, like=other) creates an unevaluated batch of n solutions (by default as many as other) with the layout and the senses of other, filled by the problem, or uninitialised with empty=True.", "quantifier": "every batch, population size and problem", "why_tests_cant": "a missing method is only found on the path which calls it", "anchors": ["src/evotorch/core.py:SolutionBatch.__init__"]}
{"id": "C100", "title": "Operators leave their input alone", "statement": "Mutation, cross-over, cut-and-splice and Cosyne's permutation change neither values nor evaluations of any existing batch, including the given one and batches sharing its memory. The result is a new batch which shares no memory with any other, and none of its solutions is evaluated.", "quantifier": "every reachable collection of batches with shared memory, every operator and every random draw", "why_tests_cant": "aliasing with arbitrary other views; tests look at one batch", "anchors": ["src/evotorch/operators/base.py:CrossOver._do", "src/evotorch/operators/base.py:CrossOver._make_children_batch", "src/evotorch/operators/real.py:GaussianMutation._do", "src/evotorch/operators/real.py:PolynomialMutation._do", "src/evotorch/operators/real.py:CosynePermutation._do", "src/evotorch/operators/sequence.py:CutAndSplice._do_cross_over"]}
{"id": "C101", "title": "cross_over_rate is the documented number of cross-overs", "statement": "With cross_over_rate = r, r * len(batch) cross-overs are performed, each of which gives two children, so that there are 2 * r * len(batch) children up to rounding.", "quantifier": "every batch size and every rate", "why_tests_cant": "a factor which is constant over all inputs is only visible to a specification", "anchors": ["src/evotorch/operators/base.py:CrossOver._compute_num_tournaments", "src/evotorch/operators/real.py:MultiPointCrossOver.__init__"]}
{"id": "C102", "title": "The status items about the population are named and computed as documented", "statement": "A single-population algorithm reports, for each objective, the best solution of the population, its evaluation, and the mean and median evaluation. With an objective index or with a single objective the items have plain names, otherwise each name is prefixed with its objective; excluded names are not reported, and disabling the reports removes all. The best solution is a member no other member is better than, its evaluation is the evaluation of that member, the mean is the average, and the median is one of the evaluations with at least half of them on each side.", "quantifier": "Every population size, every number of objectives, every objective index, every set of excluded names, all evaluations", "why_tests_cant": "Tests read one or two status items for one population; they do not show the relation between the items and the evaluations for all populations, nor what every combination of exclusions does.", "anchors": ["src/evotorch/algorithms/searchalgorithm.py:SinglePopulationAlgorithmMixin", "src/evotorch/algorithms/distributed/gaussian.py:GaussianSearchAlgorithm.__init__"]}
{"id": "C103", "title": "A neuroevolution problem keeps evaluating with its network after copying, pickling and replacing its actors", "statement": "Whatever was done to a neuroevolution problem before (evaluations, making networks from parameters, cloning or pickling, removing the remote actors), evaluating solutions with it, or with a copy of it, succeeds and uses the network the user gave, in the main process as in every actor.", "quantifier": "Every history of these operations, every number of actors, every assignment of the pieces of a batch to actors, every network", "why_tests_cant": "Tests evaluate a new problem, or copy a problem which has not evaluated yet; the failure appears only in certain orders of operations.", "anchors": ["src/evotorch/core.py:Problem._start_preparations", "src/evotorch/core.py:Problem._get_cloned_state", "src/evotorch/core.py:Problem.kill_actors", "src/evotorch/core.py:EvaluationActor.__init__", "src/evotorch/neuroevolution/neproblem.py:NEProblem._prepare", "src/evotorch/neuroevolution/neproblem.py:NEProblem.parameterize_net"]}
{"id": "C104", "title": "The class-based and the functional PGPE and CEM visit the same search distributions", "statement": "A class-based PGPE (with ClipUp) or CEM and its functional counterpart which start from the same center and standard deviation with the same settings, and which see the same evaluations, sample every generation from the same center and standard deviation.", "quantifier": "Every number of generations, every center, standard deviation, learning rate and limit on the standard deviation, every population and every evaluation result", "why_tests_cant": "Tests compare at most a few generations with the default limits; the two implementations clip the standard deviation in different orders and to different default limits.", "anchors": ["src/evotorch/algorithms/distributed/gaussian.py:GaussianSearchAlgorithm", "src/evotorch/algorithms/functional/funcpgpe.py:pgpe_tell", "src/evotorch/algorithms/functional/funccem.py:cem_tell", "src/evotorch/tools/misc.py:modify_tensor", "src/evotorch/tools/misc.py:modify_vector"]}
{"id": "C105", "title": "The rows of a vectorised policy are independent networks", "statement": "When a vectorised policy is called with one parameter vector, observation and hidden state per row, each row of the result is what a network with these parameters computes from its own observations since its own last reset; setting parameters or resetting some rows, by mask or by indices, does not affect the others, and the tensors given by the caller are not changed.", "quantifier": "Every history of setting parameters (all or some rows), calls and resets (all or some rows), every number of rows, every network with or without hidden state, every nesting of the hidden state", "why_tests_cant": "Tests check a single reset of a simple recurrent network; independence concerns arbitrary interleavings and arbitrarily nested hidden states.", "anchors": ["src/evotorch/neuroevolution/net/vecrl.py:Policy", "src/evotorch/neuroevolution/net/vecrl.py:reset_tensors", "src/evotorch/neuroevolution/net/layers.py:LocomotorNet"]}
{"id": "C106", "title": "A fitness function gets its solutions on the device it asks for", "statement": "A fitness function (or a method _evaluate_batch or _evaluate) decorated with on_device, on_cuda or on_aux_device receives the solutions on that device, whatever the device of the batch; the batch stays on its device with its values, and gets exactly the results which the function computed. A decorated _evaluate_all is refused with RuntimeError.", "quantifier": "Every combination of decorators on the functions involved, every main device, availability of cuda and actor index, every batch and fitness function (including ones which raise)", "why_tests_cant": "Tests run on machines without GPUs, where all these devices coincide.", "anchors": ["src/evotorch/decorators.py:on_device", "src/evotorch/decorators.py:on_cuda", "src/evotorch/decorators.py:on_aux_device", "src/evotorch/core.py:Problem._device_of_fitness_function", "src/evotorch/core.py:Problem._evaluate_all", "src/evotorch/core.py:Problem.aux_device"]}
{"id": "C107", "title": "Exported policies act as the problem acts when it evaluates the solution", "statement": "The policy which to_policy exports for a solution of a GymNE or VecGymNE (also by save_solution) gives, in every episode and for recurrent networks too, the actions which the environment receives when the problem runs that solution with the same observation statistics and without action noise: the observations are normalised in the same way (not at all if there are no statistics yet) and the actions are clipped to the bounds of the environment in the same way, for finite, infinite and mixed bounds; in discrete environments the position of the largest output is the action. Exporting succeeds whenever evaluating does, and training the exported network afterwards does not change the vector it was exported for.", "quantifier": "all networks, hidden states, observation sequences, statistics reachable by updates and merges, action spaces, kinds of vectors passed", "why_tests_cant": "tests compare the exported policy on a few observations, mostly without statistics or bounds, and do not train it", "anchors": ["src/evotorch/neuroevolution/gymne.py:GymNE.to_policy", "src/evotorch/neuroevolution/gymne.py:GymNE.save_solution", "src/evotorch/neuroevolution/vecgymne.py:VecGymNE.to_policy", "src/evotorch/neuroevolution/net/rl.py:ActClipWrapperModule", "src/evotorch/neuroevolution/net/rl.py:ObsNormWrapperModule", "src/evotorch/neuroevolution/net/runningnorm.py:RunningNorm.to_layer", "src/evotorch/neuroevolution/net/vecrl.py:Policy.to_torch_module"]}
{"id": "C108", "title": "The dtype and device of a container are those of every tensor in it, and casting changes nothing else", "statement": "dtype_of_container (device_of_container) ends on every finite container, with shared and circular references too. It returns the dtype (device) which all tensors found in the container, at any depth, have in common; None exactly if there is no tensor; a ValueError exactly if two tensors disagree and a TypeError only if there is an object of unknown type. cast_tensors_in_container returns a copy in which every path leads to the same contents, with the tensors cast, and in which objects are shared exactly where they were; the original is unchanged.", "quantifier": "all finite object graphs (for casting: no cycle through a tuple), all dtypes and devices", "why_tests_cant": "sharing and cycles interact with the memo dictionaries in unboundedly many ways", "anchors": ["src/evotorch/tools/misc.py:dtype_of_container", "src/evotorch/tools/misc.py:device_of_container", "src/evotorch/tools/misc.py:cast_tensors_in_container"]}
{"id": "C109", "title": "Distribution objects keep the parameters they are given, in one dtype and on one device", "statement": "A separable Gaussian can be constructed from a dictionary of parameters exactly if mu and sigma are vectors of one length (which is solution_length if that is given), all mandatory names are present, all names are known, and the tensors agree in dtype and device unless an explicit dtype or device says what to cast to; its parameters are then the given ones, cast. Whatever sequence of to, modified_copy and assignments to mu and sigma follows, all tensors of a distribution have the dtype and device it reports; a modified copy differs from its original in the given parameters only. Constructing, copying or updating a distribution changes no dictionary of the caller, and the inverse which ExpGaussian keeps is that of its current sigma.", "quantifier": "all dictionaries of parameters, all dtypes, devices and histories of operations", "why_tests_cant": "tests construct a few distributions with float32 tensors and look at one copy", "anchors": ["src/evotorch/distributions.py:Distribution.__init__", "src/evotorch/distributions.py:Distribution.to", "src/evotorch/distributions.py:Distribution.modified_copy", "src/evotorch/distributions.py:SeparableGaussian.__init__", "src/evotorch/distributions.py:ExpGaussian.__init__", "src/evotorch/distributions.py:ExpGaussian.update_parameters"]}
{"id": "C110", "title": "Functional samplers and gradient estimators take their parameters by position or by keyword, with the same effect", "statement": "A sampler made by make_functional_sampler can be called with all required parameters by position or with all of them by keyword, in any order, with the same effect; mixing, missing or surplus parameters are a TypeError, a wrong keyword is a KeyError. The distribution is made of the fixed parameters and the given ones. With batches of parameters the result has the common batch shape, and at each position it is the unbatched result for the parameters of that position. A gradient estimator treats parameters in the same way; objective_sense and ranking_method given in a call take precedence over those given at its creation; with a function it gives the gradients which the estimator without function gives for the samples drawn and their fitnesses, and returns these on request.", "quantifier": "all lists of required parameters, argument lists and keyword orders, batch shapes, fixed parameters", "why_tests_cant": "tests call the samplers in a few of the ways and shapes", "anchors": ["src/evotorch/distributions.py:FunctionalSampler", "src/evotorch/distributions.py:FunctionalGradEstimator", "src/evotorch/distributions.py:make_functional_sampler", "src/evotorch/distributions.py:make_functional_grad_estimator"]}
{"id": "C111", "title": "The tensor-making methods give tensors of the requested shape, dtype and device", "statement": "make_empty, make_zeros, make_ones, make_nan, make_I, make_uniform, make_gaussian and make_randint of a problem (distribution, search algorithm) return a tensor of the shape given by sizes, by a tuple, or by num_solutions together with the solution length; of the given dtype (a PyTorch dtype or a name), or the evaluation dtype if asked for, or the dtype of the object; on the given device or that of the object; drawn from the given generator, that of the object or the global one. With out, that tensor is filled and keeps its shape, dtype and device. Contradictory requests are refused with an error. as_tensor converts to the requested dtype and device, and returns the given tensor itself if nothing is to be changed.", "quantifier": "all sizes, numbers of solutions, dtypes, devices, generators, objects with and without the attributes concerned", "why_tests_cant": "the arguments can be combined in too many ways", "anchors": ["src/evotorch/tools/tensormaker.py:TensorMakerMixin", "src/evotorch/tools/misc.py:make_empty", "src/evotorch/tools/misc.py:make_zeros", "src/evotorch/tools/misc.py:make_I", "src/evotorch/tools/misc.py:as_tensor"]}
{"id": "C112", "title": "Immutable containers behave as the containers they were made from", "statement": "as_immutable accepts a value exactly if all its dictionary keys are ints, strings and tuples of such and its sets have no tuples (TypeError otherwise), and gives a value with the same contents which is immutable through and through. The copy is equal to the original and to other copies, compares with other values as the original does, has the items of the original at the same positions and keys, concatenates with other sequences into immutable lists, and survives pickling with its arrays read-only. ImmutableDict keeps the last value given for a key, raises KeyError for keys it does not have and TypeError for what cannot be a key.", "quantifier": "all nested values of lists, tuples, sets, dictionaries and immutable containers of any depth; all keys; all indices", "why_tests_cant": "nesting is unbounded and every kind of value may meet every other in a comparison", "anchors": ["src/evotorch/tools/immutable.py:ImmutableSequence", "src/evotorch/tools/immutable.py:ImmutableSet", "src/evotorch/tools/immutable.py:ImmutableDict", "src/evotorch/tools/immutable.py:ImmutableContainer", "src/evotorch/tools/immutable.py:as_immutable", "src/evotorch/tools/immutable.py:mutable_copy"]}
{"id": "C113", "title": "A batched functional search is a batch of independent searches", "statement": "If the tensors given to the functional CEM, PGPE, Adam, ClipUp or SGD have extra leftmost dimensions (aligned to the right, so that a tensor with fewer of them is shared), then after any number of ask/evaluate/tell rounds the part of the state which belongs to a position of the batch is the state which a search started with the parts for this position reaches when it is told the parts of the populations and fitnesses for this position, with its own random draws: no search of the batch influences another, and hyperparameters can be shared or given per search.", "quantifier": "for all batch shapes with non-empty dimensions, states, numbers of batch dimensions of each tensor, optimizers and their configurations, random draws, batchable fitness functions, and numbers of generations", "why_tests_cant": "a test compares a few batch shapes and generations; which hyperparameters carry which batch dimensions gives unboundedly many combinations, and an error (a tensor expected with the wrong number of dimensions, a field not updated) can show in a later generation only", "anchors": ["src/evotorch/algorithms/functional/funccem.py:cem_ask,cem_tell", "src/evotorch/algorithms/functional/funcpgpe.py:pgpe_ask,pgpe_tell", "src/evotorch/algorithms/functional/funcadam.py:adam_tell", "src/evotorch/algorithms/functional/funcclipup.py:clipup_tell", "src/evotorch/algorithms/functional/funcsgd.py:sgd_tell", "src/evotorch/decorators.py:expects_ndim"]}
{"id": "C114", "title": "The search gradients of PGPE, SNES and XNES are gradients of the weighted log-likelihood", "statement": "For the separable Gaussian (PGPE, plain and symmetric), the exponential separable Gaussian (SNES) and the full exponential Gaussian (XNES), the gradients computed from a population and its utilities are, up to the requested divisor, the derivatives of the utility-weighted log-likelihood of the population with respect to the distribution parameters (in the natural coordinates of each class). Hence a small enough update with positive learning rates increases that weighted log-likelihood unless the computed gradients are zero.", "quantifier": "all dimensions, centers, positive standard deviations or invertible transformation matrices, populations, utilities (centred beforehand or not), divisors other than weight_stdev, directions and positive learning rate ratios, in exact real arithmetic", "why_tests_cant": "An analytic identity over all populations and utilities; a test compares a few numbers, and a wrong sign or factor still yields plausible searches", "anchors": ["src/evotorch/distributions.py:SeparableGaussian._compute_gradients", "src/evotorch/distributions.py:SeparableGaussian._divide_grad", "src/evotorch/distributions.py:SymmetricSeparableGaussian._compute_gradients", "src/evotorch/distributions.py:ExpSeparableGaussian._compute_gradients", "src/evotorch/distributions.py:ExpGaussian._compute_gradients", "src/evotorch/distributions.py:ExpGaussian.update_parameters"]}
{"id": "C115", "title": "Searches are invariant under increasing transformations of the fitness and under changes of coordinates", "statement": "With the random draws fixed: (1) XNES, SNES and PGPE with the 'nes', 'centered' or 'linear' ranking, CEM and CMA-ES visit exactly the same distributions when the fitness is composed with any strictly increasing function; (2) minimising f and maximising -f are the same search for every ranking method; (3) XNES commutes with every invertible affine change of coordinates, SNES, PGPE (with plain learning rates) and CEM with shifts of the origin and changes of the unit of each variable, CMA-ES with shifts, changes of scale and lower triangular changes of coordinates (separable CMA-ES: changes of the unit of each variable), all without standard deviation limits.", "quantifier": "all dimensions, fitness functions, population sizes, draws, numbers of generations, learning rates and options, increasing functions and changes of coordinates, in exact real arithmetic; sorting functions that depend on comparisons only (any sorting function when there are no ties)", "why_tests_cant": "Quantifies over all fitness functions, all transformations and whole runs; a test can only compare a few runs up to rounding", "anchors": ["src/evotorch/tools/ranking.py:rank", "src/evotorch/distributions.py:Distribution.compute_gradients", "src/evotorch/distributions.py:ExpGaussian._fill", "src/evotorch/distributions.py:ExpGaussian.update_parameters", "src/evotorch/distributions.py:SeparableGaussian.update_parameters", "src/evotorch/algorithms/distributed/gaussian.py:GaussianSearchAlgorithm._step", "src/evotorch/algorithms/cmaes.py:CMAES._step"]}
{"id": "C116", "title": "Step-size control, evolution paths and decomposition schedule of CMA-ES", "statement": "With the default rates (and whenever the rates are positive) a generation of CMAES makes the step size strictly larger, strictly smaller or leaves it unchanged exactly when the updated evolution path is longer than, shorter than or exactly as long as expected (its squared length per dimension compared to one with csa_squared). If ranking carries no information, both evolution paths keep variance one in every component. The covariance path stalls exactly when the step-size path is too long for the age of the search. After k generations the decomposition used for sampling is the one of the last generation whose number is a multiple of the period, and the period is at least one.", "quantifier": "all dimensions, population sizes of at least two, options, draws, orders of the population, path values, and any number of generations", "why_tests_cant": "a test runs a few seeds; a wrong variance discount or an off-by-one in the schedule only changes the pace of adaptation, which no assertion on a benchmark pins down", "anchors": ["src/evotorch/algorithms/cmaes.py:CMAES.update_sigma", "src/evotorch/algorithms/cmaes.py:CMAES.update_p_sigma", "src/evotorch/algorithms/cmaes.py:CMAES.update_p_c", "src/evotorch/algorithms/cmaes.py:CMAES._step", "src/evotorch/algorithms/cmaes.py:_h_sig"]}
{"id": "C117", "title": "The PyCMAES searcher is the ask/tell loop of the external package on the objective, and its settings reach the package", "statement": "For every external optimiser, numeric problem and objective: as long as every proposed solution gets a fitness, n generations of the searcher leave the external optimiser in exactly the state in which n rounds of its own ask/tell loop leave it on a cost function which is lower if and only if the fitness is better in the sense of the objective; the population holds the last proposals with their evaluations. If a proposed solution gets no fitness (NaN), the step raises ValueError and the optimiser is told nothing. Maximising f and minimising -f drive the optimiser identically. Every setting reaches the optimiser: named arguments, the other entries of cma_options, the bounds of the problem with an absent side unlimited, no iteration limit and a seed drawn from the problem unless given; a setting given twice is refused with ValueError.", "quantifier": "all external optimisers (arbitrary state machines), problems, objectives, numbers of generations, option dictionaries, named arguments and bounds", "why_tests_cant": "a test fixes one optimiser version, one problem and a few generations; the agreement is over every generation and every optimiser", "anchors": ["src/evotorch/algorithms/pycmaes.py:PyCMAES.__init__", "src/evotorch/algorithms/pycmaes.py:PyCMAES._step"]}
{"id": "C118", "title": "max_num_envs bounds the environments of a VecGymNE without affecting the fitnesses", "statement": "Whatever batches a VecGymNE evaluates, at no time are there more sub-environments than max_num_envs, in total over all actors; every solution of every batch still gets its own fitness, in order. Without a limit there are at most as many as the largest batch so far. An environment which is large enough is reused. A maker returning another number of sub-environments than asked for is refused with ValueError. The simulator runs on the device of the problem, else on the actors' GPUs if there are several actors with GPUs; every documented value of num_actors is accepted.", "quantifier": "all limits, sequences of batches, environment makers, numbers of actors, and constructor arguments", "why_tests_cant": "the limit must hold at every moment of every history of evaluations; a test sees a few batches, and the failure with actors is silent or depends on the ray version", "anchors": ["src/evotorch/neuroevolution/vecgymne.py:VecGymNE._evaluate_batch", "src/evotorch/neuroevolution/vecgymne.py:VecGymNE._get_env", "src/evotorch/neuroevolution/vecgymne.py:VecGymNE._parallelize", "src/evotorch/neuroevolution/vecgymne.py:VecGymNE.__init__"]}
{"id": "C119", "title": "Legal actions, documented noise, and both environment APIs read alike", "statement": "In every interaction of an RL problem with its environment, whatever the policy outputs, the action sent belongs to the action space (clipped to the box, or the index of a greatest output); action noise is Gaussian with the given standard deviation; without noise GymNE and VecGymNE send the same action; the episode ends exactly when the environment says so by done, terminated or truncated, in the old 4-tuple and in the new 5-tuple API; answers of any other form are refused; stepping a wrapped vectorised environment before its first reset is refused without reaching the environment.", "quantifier": "every action space, policy output, noise level and draw; every answer of the environment; every sequence of resets and steps", "why_tests_cant": "tests run a few environments, none with discrete actions starting elsewhere than 0 or with floating point flags, and cannot examine the sign of noise over all draws", "anchors": ["src/evotorch/neuroevolution/gymne.py:GymNE._use_policy", "src/evotorch/neuroevolution/vecgymne.py:VecGymNE", "src/evotorch/neuroevolution/net/rl.py:take_step_in_env", "src/evotorch/neuroevolution/net/vecrl.py:TorchWrapper"]}
{"id": "C120", "title": "Every evaluation follows the documented protocol of hooks, synchronisation, preparation and status", "statement": "After any history of evaluations (some of which failed), removals of actors and changes of attributes, Problem.evaluate calls the functions of before_eval_hook, synchronises every actor once, prepares the problem or shares its attributes in the first evaluation only, evaluates, collects the synchronisation data of every actor once, updates the best and worst solutions and calls the functions of after_eval_hook, in this order; if a stage raises, the later ones do not happen and the status of the previous evaluation is kept; after a successful evaluation the status has nothing left from earlier evaluations; inside actors no hooks are called; shared attributes are available in all actors; methods of all remote problems return results in the order of the actors, and attributes set remotely can be read back.", "quantifier": "every history of calls, every choice of raising stages, every number of actors, every order in which remote calls finish", "why_tests_cant": "the order and completeness of stages must hold for every combination of failures and for every schedule of the actors", "anchors": ["src/evotorch/core.py:Problem.evaluate", "src/evotorch/core.py:Problem._sync_before", "src/evotorch/core.py:Problem._start_preparations", "src/evotorch/core.py:Problem._share_attributes", "src/evotorch/core.py:RemoteMethod", "src/evotorch/core.py:EvaluationActor"]}
{"id": "C121", "title": "Search gradients are right on average", "statement": "For a separable Gaussian search distribution with independent normal draws, raw fitness ranking and division by the number of solutions, the expected value of the computed gradient of the mean is the slope of the expected fitness with respect to the mean (of its negative when minimizing), coordinate by coordinate, times the variance and times (n-1)/n for n solutions; likewise for the standard deviations. With mirrored draws and division by the number of directions the gradient of the mean has no such loss, and the one of the standard deviations has the factor (m-1)/m for m directions. So the average step never points downhill, and a population of one unmirrored solution teaches nothing.", "quantifier": "Every dimension, every population size, every mean, every positive standard deviations, every fitness function with finite second moments under the search distributions (bounded functions and polynomials of degree two among them), both objective senses.", "why_tests_cant": "A test sees a few random populations; an expectation is a statement about all of them at once, and a wrong factor or a biased term disappears in the noise.", "anchors": ["src/evotorch/distributions.py:SeparableGaussian._compute_gradients", "src/evotorch/distributions.py:SymmetricSeparableGaussian._compute_gradients", "src/evotorch/tools/misc.py:make_gaussian", "src/evotorch/algorithms/distributed/gaussian.py:PGPE"]}
{"id": "C122", "title": "A Solution is a live handle of one row of its batch; clones are independent", "statement": "batch[k] shows the decision values and evaluations of row k at any later time; set_values and set_evals through it change exactly this row of the batch, clear respectively set the evaluations, and refuse arguments of a wrong size without changing anything; solutions of different rows never interfere; clone() and to(another device) give solutions which show the same values and share nothing; to_batch() and to(same device) share; indices outside of the batch are refused; evaluation is a scalar exactly for one objective without extra data.", "quantifier": "every batch, index, argument, and history of operations on any of the solutions, including failing ones", "why_tests_cant": "sharing and independence are statements about all later operations, in any order", "anchors": ["src/evotorch/core.py:Solution", "src/evotorch/core.py:SolutionBatch.__getitem__", "src/evotorch/tools/cloning.py:Clonable.clone"]}
{"id": "C123", "title": "Testing assertions pass exactly if what they assert is true", "statement": "An assertion of evotorch.testing passes if and only if its claim is true of the data it is given: assert_allclose if every number is within atol + rtol*|desired| of the desired one (NaN and infinities only match themselves) and refuses to run without a tolerance; assert_almost_between if every number is within its bounds extended by the tolerance, so that NaN fails; assert_eachclose if every number is within the tolerance of the value; assert_shape_matches and assert_dtype_matches if the shape, or the dtype in the terms of torch or numpy, is the expected one.", "quantifier": "all arrays and nested sequences, dtypes, shapes, bounds, values and tolerances, including NaN and infinities", "why_tests_cant": "An assertion that passes on wrong data makes every test which uses it worthless, and no test of finitely many arrays shows that it never does.", "anchors": ["src/evotorch/testing.py:assert_allclose", "src/evotorch/testing.py:assert_almost_between", "src/evotorch/testing.py:assert_eachclose", "src/evotorch/testing.py:assert_shape_matches", "src/evotorch/testing.py:assert_dtype_matches"]}
{"id": "C124", "title": "ObjectArrays are made as documented", "statement": "ObjectArray(n) has n elements, all None. ObjectArray(slice_of=(a, s)) for a slice s is a view: it always reads the same as a at those positions, and is read-only if a is. For a sequence of positions it is a copy: it has those elements and later writes to one do not show in the other, nor do its own elements affect each other. repeat(n), with the number or a one-element tuple, gives the elements n times over in a new array. numpy() gives mutable copies of the elements in order, and from_numpy() the array of them, so that the round trip keeps the elements.", "quantifier": "all histories of operations on all arrays, all sizes, slices, index sequences and repetition counts", "why_tests_cant": "Sharing of memory shows only in later writes through some other array; tests see a few such histories.", "anchors": ["src/evotorch/tools/objectarray.py:ObjectArray.__init__", "src/evotorch/tools/objectarray.py:ObjectArray.repeat", "src/evotorch/tools/objectarray.py:ObjectArray.numpy", "src/evotorch/tools/objectarray.py:ObjectArray.from_numpy"]}
{"id": "C125", "title": "A Hook is a mutable sequence of functions", "statement": "Hooks support the operations of a list with its meaning: reading, replacing and deleting by position (counted from the end if negative; positions outside raise an IndexError and change nothing), insert, append, extend, pop, remove, index, clear, reverse and slices; a slice is a hook of its own with the same arguments. Calling a hook calls each of its functions once in order, also when a function changes the hook: functions added during the call are called, and a function which removes itself does not affect the others.", "quantifier": "all hooks, positions, slices and functions, including functions which change the hook they are in", "why_tests_cant": "Position arithmetic and changes during iteration go wrong only at particular positions; callbacks that register or remove callbacks are rarely tested.", "anchors": ["src/evotorch/tools/hook.py:Hook.__getitem__", "src/evotorch/tools/hook.py:Hook.insert", "src/evotorch/tools/hook.py:Hook.__delitem__", "src/evotorch/tools/hook.py:Hook.__call__"]}
{"id": "C126", "title": "The distribution-based searchers are configured as documented", "statement": "PGPE, SNES, CEM and XNES accept exactly the documented arguments (numeric unbounded problem, exactly one of stdev_init and radius_init, vectors of the solution length, a valid objective, popsize_weighted_grad_avg only when distributed, an even popsize for a non-distributed symmetric PGPE) and then have the documented settings: the given values, or the default population sizes and learning rates, the default weighting, the requested optimizer with the center learning rate as its step size and the optimizer_config applied to it. The computation is remote exactly if distributed is requested and the problem has actors.", "quantifier": "all problems (any solution length, number of actors and objectives), all combinations of arguments, all optimizer names and configurations", "why_tests_cant": "the settings form an unbounded product of options, and the defaults are formulas in the solution length", "anchors": ["src/evotorch/algorithms/distributed/gaussian.py:PGPE", "src/evotorch/algorithms/distributed/gaussian.py:SNES", "src/evotorch/algorithms/distributed/gaussian.py:CEM", "src/evotorch/algorithms/distributed/gaussian.py:XNES", "src/evotorch/optimizers.py:get_optimizer_class"]}
{"id": "C127", "title": "The status of a searcher is a read-only mapping, and its clock is right", "statement": "The status is a mapping: iteration gives distinct keys, those which are `in` it, and their number is its length; keys are never removed or reordered; reading an absent key raises a KeyError and changes nothing. Tensors and object arrays read from it cannot be written. Printing it shows every key, with the value if that is already known, and computes nothing. dict(status), given to the log hooks, has all keys in order and the values then kept, computes each unknown value once, and does not change the searcher. step_count is the number of successful steps, and first_step_datetime is the time of the first step since construction or the last reset, where run() resets unless told otherwise.", "quantifier": "all getters (including ones reading each other without a cycle), all histories of reads, updates, clears and getter registrations, all histories of steps (successful or failing), resets and runs", "why_tests_cant": "The keys, what is cached and the clock depend on the whole history; tests look at a few short runs.", "anchors": ["src/evotorch/algorithms/searchalgorithm.py:LazyStatusDict", "src/evotorch/algorithms/searchalgorithm.py:LazyReporter", "src/evotorch/algorithms/searchalgorithm.py:SearchAlgorithm.run", "src/evotorch/algorithms/searchalgorithm.py:SearchAlgorithm.step"]}
{"id": "C128", "title": "Genetic operators are configured as documented, and then work", "statement": "Cross-overs accept a problem, an existing objective or none (negative indices count from the end), a tournament size, and not both num_children and cross_over_rate; with 1, 2 or a given number of at least one cutting points. Called on a batch they make the number of children asked for: num_children; without it as many as there are solutions, one more if that is odd; with a rate, the even number nearest to the rate times the batch size. PolynomialMutation requires floating-point values and both bounds, none of them inverted, and has eta 20 by default; GaussianMutation mutates every gene by default; CosynePermutation uses the only objective by default, and none if all is to be permuted. What is accepted at construction can be called, and what is refused is refused with a ValueError, TypeError or IndexError.", "quantifier": "all problems, arguments and batch sizes", "why_tests_cant": "Number and parity arithmetic over all batch sizes and rates, and the relation between what a constructor accepts and what later calls do.", "anchors": ["src/evotorch/operators/base.py:CrossOver.__init__", "src/evotorch/operators/base.py:CrossOver._do", "src/evotorch/operators/real.py:MultiPointCrossOver", "src/evotorch/operators/real.py:SimulatedBinaryCrossOver", "src/evotorch/operators/real.py:PolynomialMutation.__init__", "src/evotorch/operators/real.py:CosynePermutation.__init__"]}
{"id": "C129", "title": "The info dictionaries of the sub-environments become one dictionary, with one row or element per sub-environment", "statement": "For every list of info dictionaries reported by the sub-environments of a SyncVectorEnv, combining them succeeds. A key appears exactly when some sub-environment reported it. If all sub-environments reported numbers or arrays of one shape under it, its value is an array whose i-th row is the value of the i-th sub-environment; otherwise it is a list whose i-th element is the value of the i-th sub-environment, or None. With empty_info the dictionary is empty, and with a target device the arrays are on that device.", "quantifier": "all lists of info dictionaries, all keys, all values (numbers, arrays of any shape, other objects)", "why_tests_cant": "the keys and the shapes reported by the sub-environments are unbounded, and a key may appear or change its shape in any sub-environment", "anchors": ["src/evotorch/neuroevolution/net/vecrl.py:_batch_info_dicts", "src/evotorch/neuroevolution/net/vecrl.py:SyncVectorEnv.reset", "src/evotorch/neuroevolution/net/vecrl.py:SyncVectorEnv.step"]}
{"id": "C130", "title": "A vectorized environment has the spaces of its sub-environments, and is made from its name with the options that were asked for", "statement": "For every number of sub-environments, the single observation and action spaces reported by the wrapped environment are the ones of the sub-environment (choices become unbounded vectors of scores when asked for), a batched box repeats the bounds for each sub-environment, wrapping twice changes no space, and the constants offered to a network description have the lengths and shapes of the environment in which the network will act. A name without '::' and a name 'gym::x' make gym environments, 'brax::x' makes a brax environment, other registries are refused; options for gym or brax override the general ones and are used for that registry only; VecGymNE always gets one sub-environment per policy with its own episode limit and without infos, whatever env_config says.", "quantifier": "all observation and action spaces, all numbers of sub-environments, all names, all keyword arguments", "why_tests_cant": "spaces, names and options are arbitrary, and the batch size is chosen by the population", "anchors": ["src/evotorch/neuroevolution/net/vecrl.py:make_vector_env", "src/evotorch/neuroevolution/net/vecrl.py:make_gym_env", "src/evotorch/neuroevolution/net/vecrl.py:make_brax_env", "src/evotorch/neuroevolution/net/vecrl.py:TorchWrapper", "src/evotorch/neuroevolution/vecgymne.py:VecGymNE._get_env"]}
{"id": "C131", "title": "dtypes and values are classified consistently", "statement": "Conversions between PyTorch and numpy dtypes lose nothing. Every dtype has a class (bool, integer, float; real is integer or float), and every value is classified the same way whether it is a Python number, a numpy scalar, or a tensor or array without dimensions: bools are neither integers nor reals, integers are reals. A sequence is a vector of a kind exactly if all its items are of that kind, a one-dimensional tensor exactly if its elements are. Strings are neither sequences nor vectors, and a sequence is never a scalar.", "quantifier": "all dtypes and all values, sequences of any length", "why_tests_cant": "the argument checks of the whole library rest on these predicates, and values of every type and sequences of every length can be passed", "anchors": ["src/evotorch/tools/misc.py:to_torch_dtype", "src/evotorch/tools/misc.py:to_numpy_dtype", "src/evotorch/tools/misc.py:is_integer", "src/evotorch/tools/misc.py:is_real", "src/evotorch/tools/misc.py:is_bool", "src/evotorch/tools/misc.py:is_integer_vector", "src/evotorch/tools/misc.py:is_sequence"]}
{"id": "C132", "title": "The pickle files of a run hold what the search had when they were written, and do not overwrite one another", "statement": "A `PicklingLogger.save` that returns has written exactly one file, complete, under the name it returns and reports as the last one: for every requested status item that exists, a cpu copy sharing no storage with the search or with the other items; the observation statistics iff the problem normalizes observations; the policy made from the requested item, else from the center, else from the best of the population, together with the times. A save that raises leaves the reported last file and generation, and all other files, as they were. Generated names of different generations differ, have the requested width, and sort by generation; so in any history of saves at different generations every save that succeeded keeps its complete file, wherever other saves fail.", "quantifier": "all status dictionaries, items, prefixes, directories, paddings, generations, devices, histories of saves and points at which a save fails", "why_tests_cant": "tests save once or twice and do not let writing fail; file names, crash points and histories are unbounded", "anchors": ["src/evotorch/logging.py:PicklingLogger.save", "src/evotorch/logging.py:PicklingLogger.unpickle_last_file", "src/evotorch/logging.py:PicklingLogger._as_cpu_tensor", "src/evotorch/logging.py:PicklingLogger._within_dir"]}
{"id": "C133", "title": "Loggers report exactly the scalars of the statuses that are due, to the right place", "statement": "Attached to a search, a logger for scalars makes exactly the reports that are due at its interval, in order; a report consists of the scalar items of the status (texts, numbers, arrays without dimensions; no other iterables, no solutions) in their order. MLflow gets each item under the number of its step; Neptune appends each item to the series of its key under the group, and Weights & Biases gets one dictionary per report under the group; Sacred gets every item and, if asked, the result; the standard output gets each item on one line, leading keys first, aligned after the longest key; the data frame has one row per report with the values of that moment, whatever the search does to its arrays later, one column per key ever reported, and NaN for missing keys.", "quantifier": "all intervals other than zero, sequences of statuses (for the standard output: with at least one scalar, as every search has its step count), keys, groups, distinct leading keys and interleavings of reports with writes of the search", "why_tests_cant": "tests look at a few statuses and never at rows after the arrays behind them have changed; keys, lengths and histories are unbounded", "anchors": ["src/evotorch/logging.py:ScalarLogger", "src/evotorch/logging.py:StdOutLogger", "src/evotorch/logging.py:PandasLogger", "src/evotorch/logging.py:SacredLogger", "src/evotorch/logging.py:MlflowLogger", "src/evotorch/logging.py:NeptuneLogger", "src/evotorch/logging.py:WandbLogger"]}
{"id": "C134", "title": "A seeded search depends on its seed only", "statement": "Every draw made by a problem with its own generator, by the operators and by the searchers working on it, comes from that generator. Hence the result of a search after `manual_seed(s)` is a function of `s`: it does not depend on the state of the global generators or on other problems, does not disturb them, starts again when seeded again, and stays the same when the draws of any number of other searches, and of code that uses the global generators, are interleaved with its own in any order. A problem without its own generator draws from the global generator of PyTorch instead.", "quantifier": "all programs of draws (what is drawn may depend on what was drawn), seeds, states of all generators, and schedules of threads", "why_tests_cant": "a test compares a few runs in one process; it cannot try all interleavings and all states of the global generators", "anchors": ["src/evotorch/core.py:Problem.manual_seed", "src/evotorch/tools/misc.py:_generator_of", "src/evotorch/tools/tensormaker.py:TensorMakerMixin", "src/evotorch/distributions.py:Distribution.sample", "src/evotorch/neuroevolution/vecgymne.py:VecGymNE"]}
{"id": "C135", "title": "The default configuration of the logger prints every message once", "statement": "set_default_logger_config on a logger that is not configured yet makes every message of at least the given level appear exactly once: on the standard output below WARNING, on the standard error from WARNING on; messages below the level do not appear. A line has the time, the level and the message, the process unless it is hidden, and the name of the logger or the file and line. If the logger is already configured (it has handlers, or propagates to an ancestor that has some) nothing changes and a warning is logged, unless override=True, in which case it is reconfigured: the old handlers are gone and every message appears once.", "quantifier": "all levels of messages, all states of the logger and its ancestors, all sequences of calls", "why_tests_cant": "a test looks at one message after one call; how often a message appears depends on the handlers left by all earlier calls", "anchors": ["src/evotorch/tools/misc.py:set_default_logger_config", "src/evotorch/__init__.py:_verbose_level"]}
{"id": "C136", "title": "The tensor utilities keep shapes, values and identities as documented", "statement": "clip_tensor gives a tensor of the same shape, dtype and device with every element within the bounds (given per tensor or per column) and elements already within them unchanged; it is the given tensor itself exactly if there are no bounds and no copy is asked for. ensure_tensor_length_and_dtype returns a conforming tensor itself, converts numbers and sequences, repeats a number unless scalars are allowed, and raises ValueError on any other length; the method of a problem fills in its solution length, dtype and device. empty_tensor_like takes shape, dtype and device from its source unless others are given, also for object arrays. make_tensor makes a new tensor or object array with the given elements on the requested device. numpy_copy gives a new writable array with the elements of any tensor, array or iterable in the requested dtype.", "quantifier": "all tensors, bounds, dtypes, devices, lengths and combinations of arguments", "why_tests_cant": "tests try single combinations; aliasing and the dispatch on kinds of arguments must be right for all of them", "anchors": ["src/evotorch/tools/misc.py:clip_tensor", "src/evotorch/tools/misc.py:ensure_tensor_length_and_dtype", "src/evotorch/tools/misc.py:empty_tensor_like", "src/evotorch/tools/misc.py:make_tensor", "src/evotorch/tools/misc.py:numpy_copy", "src/evotorch/tools/tensormaker.py:TensorMakerMixin.ensure_tensor_length_and_dtype"]}
{"id": "C137", "title": "The neuroevolution problems are configured as documented", "statement": "GymNE takes its environment from exactly one of env and env_name. Networks given as callables decorated with pass_info get obs_length, act_length, obs_shape, act_shape, obs_space and act_space of the environment in which they will act, overridden by network_args; undecorated callables get network_args only; a signature that does not fit is a TypeError. Network strings know the same constants, with network_args taking precedence. GymNE and VecGymNE offer the same values for the same environment and read an alive bonus schedule alike; schedules of a wrong length are a ValueError. The numbers of actors, sub-batches and GPUs asked for are those of the resulting problem.", "quantifier": "every environment with box observations and box or discrete actions, every signature of a network maker, all network_args, all schedules, and all settings of actors, sub-batches, GPUs and devices", "why_tests_cant": "tests construct a few problems with default settings; precedence of constants and the handing over of each setting have to hold for every combination", "anchors": ["src/evotorch/neuroevolution/gymne.py:GymNE.__init__", "src/evotorch/neuroevolution/vecgymne.py:VecGymNE.__init__", "src/evotorch/neuroevolution/supervisedne.py:SupervisedNE.__init__", "src/evotorch/neuroevolution/neproblem.py:NEProblem._instantiate_net", "src/evotorch/tools/misc.py:pass_info_if_needed", "src/evotorch/decorators.py:pass_info"]}
{"id": "C138", "title": "Running a policy: returns, counters, statistics", "statement": "Running a policy plays whole episodes: from a reset environment and a reset policy, each action is chosen from the (normalised) observation, and an episode ends with the first step after which the environment says so or the maximal episode length is reached. With a maximal length every episode therefore ends, in any environment. The score is the average over the episodes of the sum of the decreased rewards, and the number of interactions the sum of the steps. With update_stats the interaction and episode counters grow by exactly these numbers and exactly the seen observations enter the statistics; without it counters and statistics are unchanged. A visualisation does not touch the environment of the problem. The argument update_stats is, as documented, ignored if observations are not normalised.", "quantifier": "every environment, every policy with or without memory, every noise and generator, every episode length, number of episodes, reward decrease and earlier state of the problem", "why_tests_cant": "A test plays one environment with one policy. The end of episodes, the averages and what is counted must be right for every environment, including those that never end.", "anchors": ["src/evotorch/neuroevolution/gymne.py:GymNE.run", "src/evotorch/neuroevolution/gymne.py:GymNE.visualize", "src/evotorch/neuroevolution/gymne.py:GymNE._rollout", "src/evotorch/neuroevolution/gymne.py:GymNE._evaluate_network"]}
{"id": "C139", "title": "Slicing, taking, merging and splitting batches", "statement": "Indexing a SolutionBatch with a slice, a list of integers or a boolean mask, and taking solutions by their indices, gives a batch with exactly the chosen solutions, in the chosen order, each with its own evaluations and with the senses of the source. Indices out of range, masks of a wrong length and indices that would change the shape of the stored data are refused. Merging (concat, cat, merging_of) gives all the solutions of all the batches, one batch after the other, and merging the pieces of a split gives the batch back. The constructor does not mix its ways of making a batch. Only batches that fit together are merged, and every sequence of indices is taken.", "quantifier": "every batch with any number of solutions, values and evaluation columns, every slice with any bounds and step, every list of integers, mask and tuple, every list of batches, every split", "why_tests_cant": "Tests slice a few batches with a few indices. Values and evaluations must stay together for every index and every history of splits and merges.", "anchors": ["src/evotorch/core.py:SolutionBatch.__init__", "src/evotorch/core.py:SolutionBatch.__getitem__", "src/evotorch/core.py:SolutionBatch.take", "src/evotorch/core.py:SolutionBatch.concat", "src/evotorch/core.py:SolutionBatch.cat", "src/evotorch/core.py:SolutionBatch.split"]}
{"id": "C140", "title": "Text of containers that contain themselves", "statement": "The text (str, repr, to_string) of the library's containers is complete if the container is nested at most max_depth deep: class name, items in order, keys before values, separated by commas, independently of max_depth. Deeper contents are cut and shown as <...>. Printing always succeeds, whatever a container contains, itself included: it never ends in a RecursionError, and needs at most one nested call more than max_depth.", "quantifier": "every heap of containers referring to each other in any way, cycles included, every max_depth, every limit of the stack above max_depth", "why_tests_cant": "A test prints a few containers. Cycles can have any shape and length.", "anchors": ["src/evotorch/tools/recursiveprintable.py:RecursivePrintable.to_string", "src/evotorch/tools/immutable.py:ImmutableContainer", "src/evotorch/tools/objectarray.py:ObjectArray"]}
{"id": "C141", "title": "Where errors are reported", "statement": "A NetParsingError names the line and the column of the network string at which the faulty part starts, both counted from one. A function called through ErroneousResult.call gives its result or, if it raises an error, a result that is false and holds the error; nothing but exceptions that are no errors (such as an interrupt) gets through.", "quantifier": "every network string with any number of lines and every position in it, every encoding of characters, every function and every error", "why_tests_cant": "A test looks at the position of an error in one string. Positions depend on all the characters before it.", "anchors": ["src/evotorch/neuroevolution/net/parser.py:NetParsingError", "src/evotorch/neuroevolution/net/parser.py:str_to_net", "src/evotorch/tools/misc.py:ErroneousResult"]}
{"id": "C142", "title": "Arguments of the MAP-Elites grid", "statement": "MAPElites.make_feature_grid accepts bounds that are one-dimensional, of the same size and, unless they are given explicitly, of the same dtype and device, and refuses everything else; the grid has one pair of bounds per feature, with the number of bins given for that feature. A solution fits a cell if and only if it has as many features as the grid and each of them is within its bounds; a grid for another number of features is refused.", "quantifier": "all bounds of any shape, dtype and device, every number of bins and every vector of numbers of bins, every cell and every number of features", "why_tests_cant": "A test makes a few grids with consistent arguments. What happens with inconsistent ones depends on all the combinations of shapes.", "anchors": ["src/evotorch/algorithms/mapelites.py:MAPElites.make_feature_grid", "src/evotorch/algorithms/mapelites.py:MAPElites"]}
{"id": "C143", "title": "Requests for gradients", "statement": "Problem.sample_and_compute_gradients computes the gradients from the evaluation results of the requested objective, in its sense; a negative index counts from the last objective, and the index may be left out if there is one objective. The distribution is used in the dtype of the problem. The gradients arrive on the device of the problem, alone if no statistics were asked for; with actors as a list, one result per task. On the main instance the hook before is called first and the hook after last with what is returned, not after an error. A wrong index is refused.", "quantifier": "every problem with any number of objectives and columns of evaluation data, every distribution, all devices and dtypes, with and without actors, every order in which tasks finish", "why_tests_cant": "A test with one objective on the cpu and without actors sees one of the combinations.", "anchors": ["src/evotorch/core.py:Problem.sample_and_compute_gradients", "src/evotorch/core.py:Problem._gradient_computation_helper", "src/evotorch/core.py:Problem._sample_and_compute_gradients"]}
{"id": "C144", "title": "Saved solutions", "statement": "save_solution of GymNE and VecGymNE writes a file that holds the given vector unchanged, as an ordinary tensor on the cpu, the policy exported for it, the statistics of observations if there are any, the counters, and the environment and architecture as far as they were given. It succeeds whenever the policy can be exported, and if it does not succeed a file that was there before is unharmed.", "quantifier": "every problem and every solution given as a tensor, a Solution or a sequence, every state of the statistics, all contents of the file system, everything pickle accepts or refuses", "why_tests_cant": "A test saves one solution of one problem and reads it back.", "anchors": ["src/evotorch/neuroevolution/gymne.py:GymNE.save_solution", "src/evotorch/neuroevolution/vecgymne.py:VecGymNE.save_solution"]}
{"id": "C145", "title": "SupervisedNE goes through its data set in shuffled passes and scores pairs of inputs and outputs", "statement": "With a minibatch size and a data set which is not empty, the minibatches of each pass together contain each element of the data set exactly once, all minibatches but the last one have the requested size and the last one is not empty; sizes which are not positive and empty data sets are refused. Without a minibatch size the data loader of the subclass is used. The loss of a network on a minibatch is the loss function (the one given, otherwise the one of the subclass) of the outputs for the stacked inputs, and of the stacked desired outputs. Elements which are not pairs are refused.", "quantifier": "Every data set, every shuffling, every minibatch size, every number of requests, every network and loss function", "why_tests_cant": "Tests use a data set whose size the minibatch size divides, and only pairs; what happens to other data depends on the size of the last minibatch.", "anchors": ["src/evotorch/neuroevolution/supervisedne.py:SupervisedNE.make_dataloader", "src/evotorch/neuroevolution/supervisedne.py:SupervisedNE.get_minibatch", "src/evotorch/neuroevolution/supervisedne.py:SupervisedNE._evaluate_using_minibatch", "src/evotorch/neuroevolution/supervisedne.py:SupervisedNE.loss"]}
{"id": "C146", "title": "Constraint functions apply to each position of a batch", "statement": "violation(lhs, op, rhs), penalty(...) and log_barrier(...) accept numbers and tensors in any combination; the result has the common batch shape (aligned at the right), and at each position it is what the scalar definition gives for the values at that position, where omitted arguments mean: no linear part, no step, no power, no bound, sharpness 1.", "quantifier": "Every combination of numbers and tensors, every batch shape, every position, every subset of omitted arguments", "why_tests_cant": "The combinations of argument kinds, dtypes and omitted arguments are too many to enumerate, and the failures are in combinations which look harmless.", "anchors": ["src/evotorch/tools/constraints.py:violation", "src/evotorch/tools/constraints.py:penalty", "src/evotorch/tools/constraints.py:log_barrier", "src/evotorch/decorators.py:expects_ndim"]}
{"id": "C147", "title": "A method called on all remote problems or environments runs once in each actor", "statement": "problem.all_remote_problems().f() and problem.all_remote_envs().f() make the actors if there are none yet, run f exactly once in each of them and in no other, and return the results in the order of the actors, or raise the first exception in this order. They are refused inside an actor, and the calls are refused without actors or when the actors were removed in the meantime. With all_remote_envs() the environments of the actors are made if needed.", "quantifier": "Every number of actors, every order in which the actors finish, every method, every exception, every class of problems", "why_tests_cant": "Tests use one machine, one order and methods which succeed; accessors kept across the removal of actors, or used before the first evaluation, are not exercised.", "anchors": ["src/evotorch/core.py:Problem.all_remote_problems", "src/evotorch/core.py:Problem.all_remote_envs", "src/evotorch/core.py:RemoteMethod", "src/evotorch/core.py:EvaluationActor.call_on_env", "src/evotorch/neuroevolution/vecgymne.py:VecGymNE.get_env"]}
{"id": "C148", "title": "Object arrays within immutable values, copies and pickles", "statement": "as_immutable of any nested value of lists, tensors, numpy arrays and object arrays gives a value with the same content in which nothing can be modified any more, also not through the original, and returns immutable values unchanged; a mutable copy of it has the same content in new containers, nothing of it read-only; copies (copy, deepcopy, clone with preserve_read_only, deep_clone) have the same content in new containers and are immutable if the original is; pickling and loading gives back an equally immutable value, numpy arrays in it included.", "quantifier": "all nested values", "why_tests_cant": "nesting has no bound, and whether a copy is still immutable depends on the path by which each part was made (view, clone, load), not on its content", "anchors": ["src/evotorch/tools/immutable.py:as_immutable", "src/evotorch/tools/immutable.py:mutable_copy", "src/evotorch/tools/cloning.py:deep_clone", "src/evotorch/tools/cloning.py:ReadOnlyClonable.clone", "src/evotorch/tools/objectarray.py:ObjectArray.clone", "src/evotorch/tools/objectarray.py:ObjectArray.__setstate__"]}
{"id": "C149", "title": "Copies of searches report themselves", "statement": "Deep copies of a search algorithm and the original run independently: the state and the generation of each depend on its own initial state and its own draws only, whatever is done with the others, with their loggers, and in whatever order. A logger reports the search which called it, as it is at that time; the files of the PicklingLogger of a copy hold the copy. A search with loggers can be pickled.", "quantifier": "all algorithms (as arbitrary step functions), all numbers of searches, loggers and intervals, and all histories of making, stepping, ending runs, copying and giving up", "why_tests_cant": "a unit test logs one search which it never copies; that the logger of a copy is bound to the original shows only in histories which copy, and a silent loss only after the original has been garbage-collected", "anchors": ["src/evotorch/logging.py:PicklingLogger", "src/evotorch/logging.py:Logger", "src/evotorch/algorithms/searchalgorithm.py:SearchAlgorithm"]}
{"id": "C150", "title": "Solutions whose evaluation is NaN are the worst", "statement": "A solution whose evaluation is NaN (a failed or diverged evaluation) is treated as worse than any solution whose evaluation is a number: it is not taken by take_best while such a solution is left out, does not get a larger weight in a ranking, is not an elite of the cross-entropy method, and does not drive such solutions out of the population of an elitist genetic algorithm.", "quantifier": "all columns of evaluations with any number of NaNs and infinities, both senses, all sizes, all operators and all lengths of runs", "why_tests_cant": "a unit test uses fitness functions that do not fail; the treatment of NaN depends on the sense and on the method, and the loss of a whole population needs as many failures as there are places", "anchors": ["src/evotorch/core.py:SolutionBatch.argsort", "src/evotorch/core.py:SolutionBatch.take_best", "src/evotorch/tools/ranking.py:centered", "src/evotorch/tools/ranking.py:linear", "src/evotorch/distributions.py:SeparableGaussian", "src/evotorch/algorithms/ga.py:GeneticAlgorithm"]}
{"id": "C151", "title": "Elitist multi-objective runs", "statement": "An elitist GeneticAlgorithm on a problem with several objectives keeps its population size over any number of steps. In a step, what is kept are parents and children, and no solution is kept while a candidate which dominates it is dropped. Progress is never lost: for each solution of the population some later population has one that is nowhere worse, and the best value of each objective is kept.", "quantifier": "all populations, fitness functions, operators, senses, numbers of objectives and numbers of steps", "why_tests_cant": "the fronts that arise depend on the history; a test sees a few of them, and the loss happens only when a front overflows the population", "anchors": ["src/evotorch/algorithms/ga.py:GeneticAlgorithm._step", "src/evotorch/algorithms/ga.py:ExtendedPopulationMixin._make_extended_population", "src/evotorch/core.py:SolutionBatch.take_best"]}
{"id": "C152", "title": "Chances in tournaments", "statement": "In a tournament of t contestants out of n solutions, the solution with p solutions ranked below it wins with probability ((p+1)^t - p^t) / n^t: better solutions have larger chances as soon as two compete, the best one wins unless it is not drawn, and someone always wins. With several objectives, solutions of better fronts have larger chances and solutions of one front are ordered by the noise. The parents of a cross-over are chosen independently of each other.", "quantifier": "all populations of at least two evaluated solutions, senses, ties, tournament sizes, fronts, noise without repetitions, and numbers of cross-overs", "why_tests_cant": "a test can only estimate frequencies for a few sizes; these are exact probabilities for all of them", "anchors": ["src/evotorch/operators/base.py:CrossOver._do_tournament"]}
{"id": "C153", "title": "An elitist GeneticAlgorithm with GaussianMutation finds the optimum in the limit", "statement": "On a problem with finite bounds, an elitist GeneticAlgorithm whose last operator is GaussianMutation (stdev and mutation probability positive) and whose other operators stay inside the bounds: the probability that after k generations no solution is at least as good as the worst fitness of a given box inside the bounds is at most (1-d)^k, with d > 0 depending only on the box, the bounds and the mutation. So with a continuous fitness the best solution comes within any distance of the optimal fitness with probability tending to 1. Without elitism this fails. With a mutation probability p, a gene of a child is changed with a chance of at most p.", "quantifier": "all bounded problems, fitness functions, senses, population sizes, other operators with any random draws, initial solutions inside the bounds, target boxes, numbers of generations", "why_tests_cant": "a claim about the limit of a random process; runs can neither confirm nor refute it", "anchors": ["src/evotorch/algorithms/ga.py:GeneticAlgorithm._step", "src/evotorch/operators/real.py:GaussianMutation._do"]}
{"id": "C154", "title": "The optimisers over long runs", "statement": "ClipUp: after n non-zero gradients the center is at most n times max_speed away from its start; only the directions of the gradients matter; with gradients in one direction the speeds never decrease and, for step sizes above (1 - momentum) * max_speed, reach max_speed and stay there. SGD: with a constant gradient the n-th step is the plain step times (1 - m^n) / (1 - m). Adam: with a constant gradient every step is exactly lr * g / (|g| + eps), and whatever the gradients every component's step is bounded by lr times a number that depends on the betas and the step count only.", "quantifier": "all initial centers, settings (momentum in [0, 1], Adam with betas in [0, 1) and beta1^2 < beta2 for its bound), gradient histories of any length and sizes", "why_tests_cant": "statements about all histories and about the limit of speeds", "anchors": ["src/evotorch/algorithms/functional/funcclipup.py:clipup_tell", "src/evotorch/algorithms/functional/funcsgd.py:sgd_tell", "src/evotorch/algorithms/functional/funcadam.py:adam_tell", "src/evotorch/optimizers.py:ClipUp.ascent"]}
{"id": "C155", "title": "Memories, lists, dictionaries and bags work with any batch shape", "statement": "A memory, list, dictionary or bag whose batch shape has any number of dimensions reads and writes, at every batch position, that position's own content at its own key, and results have the batch shape. A key that is accepted without a mask is accepted with one. What was read keeps its value when the structure changes later. Whether a structure is batched can be asked.", "quantifier": "All batch shapes, contents, keys, masks and later writes.", "why_tests_cant": "Tests use no batch or one batch dimension; the claim is about every shape of a batch and every later write.", "anchors": ["src/evotorch/tools/structures.py:CMemory.__init__", "src/evotorch/tools/structures.py:CMemory.get", "src/evotorch/tools/structures.py:CMemory.set_", "src/evotorch/tools/structures.py:Structure.is_batched", "src/evotorch/tools/structures.py:do_where"]}
{"id": "C156", "title": "CMA-ES can be created for every suitable problem", "statement": "CMAES can be created for every unbounded numeric problem, with a missing or positive population size, a missing center (if the problem can generate solutions), a Solution, or a vector of the length of the solutions as center, and a valid objective. The search has the given population size or 4 + floor(3 ln d), and works on the objective that was asked for. Unsuitable problems, objectives and centers are refused. An accepted population size gives a search that is defined.", "quantifier": "All problems (lengths, objectives, bounds) and all arguments.", "why_tests_cant": "Tests create a few searches; the claim is about every length of solutions, population size and shape of the center.", "anchors": ["src/evotorch/algorithms/cmaes.py:CMAES.__init__", "src/evotorch/core.py:Problem.ensure_unbounded", "src/evotorch/core.py:Problem.ensure_numeric", "src/evotorch/core.py:Problem.normalize_obj_index", "src/evotorch/core.py:Problem.generate_batch"]}
{"id": "C157", "title": "Immutable lists of iterables", "statement": "as_immutable(x) and ImmutableList(x) of an iterable have exactly the contents of the items which iterating over x yields, in that order, also if the iterable makes its items only while it is iterated over (d.items(), zip, enumerate, generators).", "quantifier": "all iterables of nested sequences of basic data, all ways in which the interpreter gives the addresses of discarded objects to new ones", "why_tests_cant": "Whether the address of a discarded item is used again depends on the allocator; tests use lists, whose items all exist at the same time.", "anchors": ["src/evotorch/tools/immutable.py:as_immutable", "src/evotorch/tools/immutable.py:ImmutableSequence.__init__"]}
{"id": "C158", "title": "Solutions evaluated with the same network do not influence one another", "statement": "A neuroevolution problem evaluates all its solutions with one network, whose parameters it replaces. The fitness of a solution (in a deterministic environment, without normalisation of observations and without noise; or on given minibatches) is the one it gets when it is evaluated alone, whatever was evaluated before and in whatever mode (training or evaluation) the network was. Evaluating or running a policy leaves the user's modules (their parameters and their modes) as they were, and an exported network acts as the network did in the evaluation.", "quantifier": "Every network (with buffers, internal state, and different behaviour in its two modes), every sequence of solutions, every deterministic environment, every set of minibatches", "why_tests_cant": "The influence is through what a network holds besides its parameters, after any history of evaluations; tests use networks that hold nothing.", "anchors": ["src/evotorch/neuroevolution/neproblem.py:NEProblem.parameterize_net", "src/evotorch/neuroevolution/neproblem.py:NEProblem._instantiate_net", "src/evotorch/neuroevolution/gymne.py:GymNE.run", "src/evotorch/neuroevolution/gymne.py:GymNE.to_policy", "src/evotorch/neuroevolution/supervisedne.py:SupervisedNE._evaluate_network", "src/evotorch/neuroevolution/net/statefulmodule.py:StatefulModule.reset", "src/evotorch/neuroevolution/net/layers.py:LocomotorNet"]}
{"id": "C159", "title": "verify=False only leaves out the checks", "statement": "A CMemory, CDict, CList or CBag made with verify=False returns the same values and holds the same contents as one made with verify=True after every history of calls that raises no error on the latter. A CList with verify=False never raises an error about an index or a length: adding to a full list replaces the element at that end, removing from an empty one returns the fallback value and leaves it empty, and indices count around the capacity. A CMemory with verify=False takes a key below the first one from the end, once around, and raises an IndexError beyond that. get with a default returns the default for every index that the verifying structure answers with the default.", "quantifier": "all structures, capacities, batch sizes, masks, keys, values, random numbers of the bag, and all histories of method calls", "why_tests_cant": "The option changes the index arithmetic, not only the checks, and whether the two modes agree depends on where the ring buffer stands, on masked-out items and on the whole history.", "anchors": ["src/evotorch/tools/structures.py:CList._mod_underlying_key", "src/evotorch/tools/structures.py:CList._get_underlying_key", "src/evotorch/tools/structures.py:CList.get", "src/evotorch/tools/structures.py:CMemory._get_key", "src/evotorch/tools/structures.py:CDict", "src/evotorch/tools/structures.py:CBag"]}
{"id": "C160", "title": "An interrupted step can be repeated", "statement": "When step() of a search algorithm raises because the fitness function (or an operator) raised, and the user calls step() again, the search goes on as if the failed call had not been made: after the next completed step the state (population, evaluations, distribution, archive) is the one that the completed calls alone produce with the same draws. This holds for genetic algorithms and MAPElites that re-evaluate their parents, for distributed Gaussian searches, for CMA-ES, and for failures before the first completed step of a Gaussian search. With re_evaluate=False (and for Cosyne) it fails when the evaluation of the initial population is interrupted: the flag saying that it still has to be evaluated has been cleared, so it never is; an elitist search that maximises keeps that unevaluated population for ever. A non-distributed Gaussian search interrupted after its first step has already followed its gradients, and follows gradients of unevaluated samples (or, with num_interactions, the same gradients once more) when the step is repeated.", "quantifier": "all histories of completed and interrupted calls of step(), all points of interruption, all subsets of solutions evaluated before the error, all fitness functions, operators and draws", "why_tests_cant": "the crash points, the subsets of evaluated solutions and the histories are unbounded; a test fixes one", "anchors": ["src/evotorch/algorithms/ga.py:ExtendedPopulationMixin._make_extended_population", "src/evotorch/algorithms/ga.py:Cosyne._step", "src/evotorch/algorithms/distributed/gaussian.py:GaussianSearchAlgorithm._step_non_distributed", "src/evotorch/algorithms/distributed/gaussian.py:GaussianSearchAlgorithm._step_distributed", "src/evotorch/algorithms/cmaes.py:CMAES._step", "src/evotorch/algorithms/mapelites.py:MAPElites._step"]}
{"id": "C161", "title": "Guarantees survive the rounding of floating point arithmetic", "statement": "The guarantees of the library hold for the rounded arithmetic of the machine and not only for exact arithmetic. A value drawn uniformly lies within its bounds. Comparing two solutions, and testing a constraint, is never mistaken. A batch is divided into as many pieces as are needed. Taking the best solutions with several objectives never prefers a worse front. Ranking gives a strictly better fitness a strictly larger weight. A ratio of a population that is a whole number gives that number of parents or elites. Over a whole run, a controlled standard deviation stays within its limits and positive, and the collected statistics of equal observations show no variance.", "quantifier": "every binary floating point format, every rounding to the nearest, every input that is a number of the format, every batch size up to what the format can count", "why_tests_cant": "Rounding errors show only for particular inputs among billions, and differ between types and devices.", "anchors": ["src/evotorch/tools/misc.py:make_uniform", "src/evotorch/core.py:Problem.compare_solutions", "src/evotorch/tools/constraints.py:violation", "src/evotorch/core.py:SolutionBatchPieces", "src/evotorch/core.py:SolutionBatch.take_best", "src/evotorch/tools/ranking.py:centered", "src/evotorch/distributions.py:SeparableGaussian"]}
{"id": "C162", "title": "Random choices have the chances they should", "statement": "With a random generator whose words are equally likely and independent: make_randint(n=...) and the integer make_uniform give every allowed value its fair share up to less than one resp. two words of the generator, and independently for each element; a gene is mutated with the requested mutation probability up to one step of the uniform generator, independently of the other genes, and never if the probability is zero; the first child of a one-point cross-over takes its gene number j from the first parent with chance j/(length-1), of a k-point cross-over with chance (1-(1-2a)^k)/2 where a=(j+1)/(length+1); a Cosyne permutation makes every rearrangement of the selected entries equally likely, always selects the worst solution and practically never the best; popping everything from a CBag gives every order of its items equally often.", "quantifier": "all dtypes, bounds, tensor shapes, mutation probabilities, populations, masks, cut counts, bag sizes and contents", "why_tests_cant": "a test can only sample draws and compare frequencies; the claim is about the exact proportion of all words of the generator", "anchors": ["src/evotorch/tools/misc.py:make_uniform", "src/evotorch/tools/misc.py:make_randint", "src/evotorch/operators/real.py:GaussianMutation", "src/evotorch/operators/real.py:PolynomialMutation", "src/evotorch/operators/real.py:MultiPointCrossOver", "src/evotorch/operators/real.py:CosynePermutation", "src/evotorch/tools/structures.py:CBag"]}
{"id": "C163", "title": "Reported values stay what they were", "statement": "What a status reported after a step stays what it was while the search goes on: the center and the spread of the search distribution, the best solution of the population and the best and worst solution so far that were read from a status (or were received by a log hook) after some step look the same after any number of further steps, so that a history of statuses can be collected and evaluated later.", "quantifier": "all histories of steps and reads of the status, of the distribution-based searchers with fixed and adaptive population size, of CMA-ES and of the genetic algorithm, every number of objectives", "why_tests_cant": "whether a reported object shares memory with something that a later step overwrites shows only in some histories, and only if the test compares an old status again after later steps", "anchors": ["src/evotorch/core.py:Problem._get_best_and_worst", "src/evotorch/algorithms/searchalgorithm.py:SinglePopulationAlgorithmMixin", "src/evotorch/algorithms/distributed/gaussian.py:GaussianSearchAlgorithm", "src/evotorch/algorithms/cmaes.py:CMAES", "src/evotorch/algorithms/ga.py:GeneticAlgorithm"]}
{"id": "C164", "title": "Precision of the feature grid", "statement": "MAPElites.make_feature_grid makes a grid of the requested precision: the first and the last inner edge of a feature are its lower and upper bound, every feature vector lies in some cell, and a feature vector that is on no edge lies in exactly one, although the edges are computed in floating point; a feature value greater than the upper bound is in the last bin.", "quantifier": "every floating point format and rounding to the nearest, all bounds, numbers of features and numbers of bins, all feature vectors", "why_tests_cant": "The rounding of an edge differs for every pair of bounds and number of bins; a test looks at a few grids with round bounds.", "anchors": ["src/evotorch/algorithms/mapelites.py:MAPElites.make_feature_grid"]}
{"id": "C165", "title": "Dtype and device of the functional searches", "statement": "A search made by cem or pgpe (with any of the functional optimizers adam, clipup and sgd) works in the dtype and on the device of the given center: every tensor of the initial state has them and, for vectors, the solution length of the center; all populations that ask returns have them; and they never change in a history of generations, whatever the dtypes of the evaluations, while populations of wider dtypes widen the center and the standard deviation to the smallest dtype that holds all of them.", "quantifier": "All shapes, dtypes and devices of the center and of the other arguments, the three optimizers, all ranking methods, symmetric and non-symmetric sampling, and all histories of ask and tell with populations and evaluations of arbitrary dtypes.", "why_tests_cant": "Tests run on the cpu in single precision; a tensor made with the default dtype or on the default device shows only for half precision centers or on a CUDA device.", "anchors": ["src/evotorch/algorithms/functional/misc.py:_get_stdev_init", "src/evotorch/algorithms/functional/funccem.py:cem", "src/evotorch/algorithms/functional/funccem.py:cem_tell", "src/evotorch/algorithms/functional/funcpgpe.py:pgpe", "src/evotorch/algorithms/functional/funcpgpe.py:pgpe_tell", "src/evotorch/algorithms/functional/funcsgd.py:sgd", "src/evotorch/algorithms/functional/funcadam.py:adam", "src/evotorch/algorithms/functional/funcclipup.py:clipup"]}
{"id": "C166", "title": "Keys, values and masks of any shape", "statement": "The memory object accepts keys, values and masks as numbers, as (nested) sequences or as tensors: one key for all batch positions or one per position, one number, one value for all or one value per position, and one mask element per position. Every operation then updates exactly the slots of the selected positions, element by element, with the numbers meant for them; all else is refused and changes nothing. The constructor accepts sizes as integers or as one tuple, numbers of keys as an integer or as a tuple of at least two, fitting offsets and one batch shape, and the memory has exactly these sizes.", "quantifier": "all arguments of the constructor, all memories it makes with batch shapes of at most one dimension up to leading ones, all keys, values and masks of all shapes", "why_tests_cant": "the shapes, positions and forms of the arguments are unbounded; tests try a few shapes, mostly without a mask", "anchors": ["src/evotorch/tools/structures.py:CMemory.__init__", "src/evotorch/tools/structures.py:CMemory.set_", "src/evotorch/tools/structures.py:CMemory.add_", "src/evotorch/tools/structures.py:CMemory.add_circular_", "src/evotorch/tools/structures.py:CMemory.multiply_", "src/evotorch/tools/structures.py:CMemory.subtract_", "src/evotorch/tools/structures.py:CMemory.divide_", "src/evotorch/tools/structures.py:do_where"]}
{"id": "C167", "title": "Seeded problems work on every device and with actors", "statement": "A problem with its own random generator can do all that one without can: make solutions, take part in searches, answer requests for gradients, and be copied into its actors, whatever has been done with it before. The fitness function, network or simulator works on the device it should: the one asked for by a decorator, that of the problem, the auxiliary one in actors, the cpu for GymNE, that of the simulator for VecGymNE. Gradients arrive on the device of the problem.", "quantifier": "all problems (with fitness functions, NEProblem, SupervisedNE, GymNE, VecGymNE), devices, seeds, actors, and histories of seeding, steps and requests", "why_tests_cant": "the tests run on a machine without GPU, seldom with actors, and with few of the combinations; a mistake shows only for a combination of device, decorator, seed and history", "anchors": ["src/evotorch/core.py:Problem.manual_seed", "src/evotorch/core.py:Problem._sample_and_compute_gradients", "src/evotorch/core.py:Problem._grad_device", "src/evotorch/core.py:EvaluationActor.__init__", "src/evotorch/neuroevolution/neproblem.py:NEProblem.network_device", "src/evotorch/neuroevolution/vecgymne.py:VecGymNE._grad_device"]}
{"id": "C168", "title": "Evolutionary searches stay within the bounds of the problem", "statement": "On a problem with bounds whose first population is within the bounds, every population and every solution evaluated by GeneticAlgorithm, SteadyStateGA, Cosyne or MAPElites stays within the bounds for the whole run, for any sequence of the library's operators, any fitness functions (also noisy or changing ones) and any random draws, provided polynomial mutation is used only where every lower bound is below its upper bound. When only multi-point cross-over and permutation are used, every gene of every later solution stood in the same column of the first population.", "quantifier": "all numbers of steps, population sizes, solution lengths, orders of operators, settings of the searches, fitness functions, draws and bounds (also one-sided or missing)", "why_tests_cant": "a test runs a few generations with some seeds, and a gene that leaves the bounds may need a rare draw; the claim is an invariant of all histories", "anchors": ["src/evotorch/algorithms/ga.py:GeneticAlgorithm", "src/evotorch/algorithms/ga.py:Cosyne", "src/evotorch/algorithms/mapelites.py:MAPElites", "src/evotorch/operators/real.py:GaussianMutation", "src/evotorch/operators/base.py:Operator._respect_bounds"]}
{"id": "C169", "title": "Evolutionary searches evaluate exactly what they should, and their operators see current evaluations", "statement": "Over a run of GeneticAlgorithm, SteadyStateGA or MAPElites, the solutions given to problem.evaluate are all children, plus the population once (re_evaluate=False) or in every step (re_evaluate=True); Cosyne evaluates the population once and in every step its elites, its children and a permuted population. With re_evaluate=True every evaluation held by the population after a step was made in that step; with re_evaluate=False every solution is evaluated once, when it is made. If a cross-over may be used and re_evaluate_parents_first=False was not requested, the solutions shown to the operators are evaluated; cross-overs choose their parents by fitness.", "quantifier": "all numbers of steps, population sizes, numbers of children, operators, fitness functions (also noisy or changing), accepted combinations of arguments", "why_tests_cant": "a test counts evaluations for one configuration; the budget and the age of evaluations are statements about all histories and configurations", "anchors": ["src/evotorch/algorithms/ga.py:ExtendedPopulationMixin", "src/evotorch/algorithms/ga.py:GeneticAlgorithm", "src/evotorch/algorithms/ga.py:SteadyStateGA", "src/evotorch/algorithms/ga.py:Cosyne", "src/evotorch/algorithms/mapelites.py:MAPElites"]}
{"id": "C170", "title": "MAP-Elites with Gaussian mutation fills every reachable cell, and finds its best, in the limit", "statement": "On a bounded continuous problem whose fitness and features are continuous within the bounds, `MAPElites` whose last operator is `GaussianMutation` (positive probability and standard deviation; any other operators before it, provided they keep within the bounds) fills, with a chance tending to 1 as the number of generations grows, every cell in whose interior some point's features lie, and holds there a solution whose fitness is within any epsilon of the fitness of that point, or better; for all such cells at once, from any initial solutions within the bounds. For a box of points which all belong to a cell and are as good as a given level, the chance of not holding one so good after k generations is at most (1 - delta)^k with a positive delta that depends on the settings of the mutation, the box and the bounds alone.", "quantifier": "all sizes of solutions, grids (with infinite edges), continuous fitnesses and features, objective senses, numbers of children, re-evaluation settings, other operators and laws of their draws, initial solutions, epsilons, numbers of generations", "why_tests_cant": "A chance over infinitely many draws and a limit over the number of generations; tests run some generations with some seeds", "anchors": ["src/evotorch/algorithms/mapelites.py:MAPElites._step", "src/evotorch/operators/real.py:GaussianMutation._do", "src/evotorch/algorithms/ga.py:ExtendedPopulationMixin._make_extended_population"]}
{"id": "C171", "title": "The reported best of an evolutionary search with Gaussian mutation finds the optimum in the limit, with or without elitism", "statement": "On a bounded continuous problem (one objective, solution statistics stored) whose fitness is continuous within the bounds, let `GeneticAlgorithm` or `SteadyStateGA` have `GaussianMutation` (positive probability and standard deviation) as the last operator, or let `Cosyne` have a mutation; any other operators keep within the bounds. For every point within the bounds, and so for the optimum, and every epsilon, the chance that after k generations `status['best']` is not a solution whose evaluation is its own fitness and within epsilon of the fitness of that point, or better, tends to 0, whether the search is elitist or not, however many elites `Cosyne` keeps, with or without re-evaluation. Geometric rate for a level that a whole box of points attains.", "quantifier": "all solution lengths, bounds, continuous fitnesses, objective senses, population sizes, elitism and re-evaluation settings, other operators and laws of their draws, initial solutions, epsilons, numbers of generations", "why_tests_cant": "A chance over infinitely many draws and a limit over the number of generations; the population itself may forget the optimum, so no test of a population shows it", "anchors": ["src/evotorch/core.py:Problem._get_best_and_worst", "src/evotorch/algorithms/ga.py:GeneticAlgorithm._step", "src/evotorch/algorithms/ga.py:Cosyne._step", "src/evotorch/operators/real.py:GaussianMutation._do"]}
{"id": "C172", "title": "CMA-ES does not change its covariance for no reason", "statement": "If the ranking of the population carries no information (the order of the solutions does not depend on what was drawn) and the draws are standard normal, then a generation of CMAES leaves the covariance as it is on average: exactly for the rank-mu update over a whole run, and up to a relative error of 1e-23 together with the rank-one update once the evolution path has the covariance as its second moments, whether or not the path stalls; with and without 'active', with and without 'separable'.", "quantifier": "All dimensions, population sizes of at least two, learning rates, orders of the populations, covariances and their factors, distributions of the previous path, all normal draws; for the rank-mu update all numbers of generations.", "why_tests_cant": "An average over a continuous distribution cannot be read off from finitely many runs; a small drift of the covariance is invisible in a test and compounds over thousands of generations.", "anchors": ["src/evotorch/algorithms/cmaes.py:CMAES.update_C", "src/evotorch/algorithms/cmaes.py:CMAES.update_p_c", "src/evotorch/algorithms/cmaes.py:CMAES.get_population_weights", "src/evotorch/algorithms/cmaes.py:CMAES.__init__"]}
{"id": "C173", "title": "Uninformative fitnesses do not move a distribution-based search on average", "statement": "If the fitnesses carry no information about the solutions (they do not depend on the random draws, for example a flat fitness function), then over a generation, and over any number of generations, the center of SNES, XNES, PGPE and CEM is on average unchanged. So is the spread, in the terms of each update: the standard deviations of PGPE, the logarithms of the standard deviations of SNES, the logarithm of the volume of XNES, and the variances of CEM.", "quantifier": "all fitness values, ranking methods, learning rates, divisors, population sizes, dimensions, states and numbers of generations; draws independent and normal", "why_tests_cant": "an average over all normal draws", "anchors": ["src/evotorch/distributions.py:SeparableGaussian._compute_gradients", "src/evotorch/distributions.py:SymmetricSeparableGaussian._compute_gradients", "src/evotorch/distributions.py:ExpSeparableGaussian._compute_gradients", "src/evotorch/distributions.py:ExpGaussian._compute_gradients", "src/evotorch/distributions.py:SeparableGaussian._compute_gradients_via_parenthood_ratio"]}
{"id": "C174", "title": "On a linear fitness function no generation makes the center worse", "statement": "With a fitness function that is linear in the solution, a generation of PGPE (mirrored or not, whatever the gradient is divided by, with any of the five rankings) or XNES (any ranking) never moves the center to a worse place, whatever was sampled, and moves it to a strictly better one whenever the solutions of the generation are not all equally good; so over any number of generations the center never loses. SNES does the same with the rankings whose utilities sum to zero (nes, the default, centered and normalized), and with linear it can move the center to a worse place. CEM and CMA-ES (with c_m = 1) move the center to a place not worse than the average solution of the generation, and so on average over the draws not worse than the old center, and better if the search can sample anything that is not equally good.", "quantifier": "all linear fitness functions, both senses, dimensions, populations of at least two solutions, draws, rankings as stated, non-negative learning rates, sorters and numbers of generations (not all fitnesses equal for raw and normalized)", "why_tests_cant": "It is a claim about every draw and every linear function, and for CEM and CMA-ES about an average over all draws; a test runs a few seeds.", "anchors": ["src/evotorch/algorithms/distributed/gaussian.py:PGPE,SNES,XNES,CEM", "src/evotorch/algorithms/cmaes.py:CMAES", "src/evotorch/distributions.py:SeparableGaussian._compute_gradients,SymmetricSeparableGaussian._compute_gradients,ExpSeparableGaussian._compute_gradients,ExpGaussian._compute_gradients", "src/evotorch/tools/ranking.py:rank"]}
{"id": "C175", "title": "PGPE converges to the optimum of a quadratic fitness function", "statement": "On a quadratic fitness function with its optimum at t (a bowl, to be minimised or upside down to be maximised), PGPE with mirrored solutions, raw fitness ranking and gradients divided by the number of directions multiplies each coordinate of the center's distance to t on average by 1 - 2*lr*curvature*stdev^2 in a generation, so with a fixed spread the average center approaches t geometrically. With equal curvatures and standard deviations, in d dimensions and with n directions, the average squared distance to t is multiplied by exactly 1 - 2h + h^2*(1 + (d+1)/n) per generation, where h = 2*lr*curvature*stdev^2: the center converges to the optimum in mean square whenever lr*curvature*stdev^2*(1 + (d+1)/n) < 1, diverges when it is > 1, and no learning rate is faster than (d+1)/(n+d+1) per generation. With a learning rate for the spread, the standard deviations on average shrink by stdev_lr*2*curvature*stdev^3*(n-1)/n in a generation, wherever the center is.", "quantifier": "all dimensions, numbers of directions, learning rates, curvatures, optima, centers, standard deviations and numbers of generations", "why_tests_cant": "Convergence is a statement about averages over all random draws and about the limit of infinitely many generations; a test sees a few runs of finite length.", "anchors": ["src/evotorch/algorithms/distributed/gaussian.py:PGPE", "src/evotorch/algorithms/distributed/gaussian.py:GaussianSearchAlgorithm._step_non_distributed", "src/evotorch/distributions.py:SymmetricSeparableGaussian._compute_gradients", "src/evotorch/distributions.py:SymmetricSeparableGaussian._fill", "src/evotorch/tools/ranking.py:raw"]}
{"id": "C176", "title": "PGPE's optimisers keep its progress on linear fitness functions", "statement": "On a linear fitness function, the center of PGPE with an optimiser (ClipUp, which is the default, SGD or Adam) is after each generation at least as good as at any earlier time, despite the momentum from earlier generations and despite the clipping of the speed; a generation whose solutions are not all equally good makes the center better. No generation makes the center NaN.", "quantifier": "all linear fitness functions, senses, dimensions, rank-based rankings, population sizes, draws, settings of the optimiser and numbers of generations", "why_tests_cant": "The momentum carries what was learned from draws of all earlier generations; a test sees one sequence of draws, and whether some sequence turns the momentum against the gradient is a question about all of them.", "anchors": ["src/evotorch/algorithms/distributed/gaussian.py:GaussianSearchAlgorithm._update_distribution", "src/evotorch/optimizers.py:ClipUp.ascent", "src/evotorch/optimizers.py:TorchOptimizer.ascent", "src/evotorch/distributions.py:SeparableGaussian.update_parameters"]}
{"id": "C177", "title": "A distributed PGPE search keeps the guarantees of a local one", "statement": "However the solutions of a generation are shared among actors (at least two each), with or without weighting by the numbers of solutions, and although every actor ranks only its own solutions: on a linear fitness function the center of a distributed PGPE search without an optimiser, with ClipUp or with SGD is at no time worse than earlier, and with ClipUp a generation in which the solutions of one actor differ in fitness makes it better. With mirrored solutions, raw fitnesses and gradients divided by the number of directions, a distributed generation moves the center exactly as a local generation with all the draws does (if weighted, or if all actors have equally many solutions), so the convergence on quadratic functions carries over to distributed runs with a fixed spread.", "quantifier": "all linear fitness functions (for the last sentence: all fitness functions), senses, dimensions, ways of sharing, draws, rank-based rankings, settings of the optimisers and numbers of generations", "why_tests_cant": "How a population is shared depends on the number of actors and on subbatch settings, and each actor ranks its solutions without knowing the others; a test covers a few ways of sharing and a few seeds.", "anchors": ["src/evotorch/algorithms/distributed/gaussian.py:GaussianSearchAlgorithm._step_distributed", "src/evotorch/core.py:Problem.sample_and_compute_gradients", "src/evotorch/optimizers.py:ClipUp.ascent", "src/evotorch/optimizers.py:TorchOptimizer.ascent", "src/evotorch/distributions.py:SeparableGaussian.update_parameters"]}
{"id": "C178", "title": "On quadratic functions, PGPE with momentum follows on average the noiseless method with momentum, and finds the optimum", "statement": "Minimise a quadratic bowl (or maximise an inverted one) with PGPE (mirrored solutions, raw fitnesses, gradients divided by the number of directions, fixed standard deviations) and the optimiser SGD. In every coordinate the average of the center's distance to the optimum follows exactly the noiseless recursion: with momentum m, dampening and Nesterov as configured, with slope 2 \u03ba \u03c3\u00b2 times the distance (curvature \u03ba, standard deviation \u03c3); the population size has no influence on it. Without momentum it is multiplied by 1 - lr 2 \u03ba \u03c3\u00b2 in each generation, whatever dampening and nesterov say. With 0 < m < 1 it goes to zero if 0 < lr (1 - dampening) 2 \u03ba \u03c3\u00b2 < 2 (1 + m), and with Nesterov's momentum if 0 < lr 2 \u03ba \u03c3\u00b2 and lr 2 \u03ba \u03c3\u00b2 (1 + 2 m) < 2 (1 + m); at the first limit it does not.", "quantifier": "all dimensions, numbers of directions, bowls, centers, standard deviations, learning rates, momentums, dampenings and numbers of generations", "why_tests_cant": "A test sees single noisy runs; the claim is about exact expectations over all runs and about limits over all numbers of generations.", "anchors": ["src/evotorch/algorithms/distributed/gaussian.py:PGPE", "src/evotorch/optimizers.py:SGD", "src/evotorch/optimizers.py:TorchOptimizer.ascent", "src/evotorch/distributions.py:SymmetricSeparableGaussian._compute_gradients", "src/evotorch/distributions.py:Distribution._follow_gradient"]}
{"id": "C179", "title": "SNES with an optimiser, and distributed SNES and CEM, keep their progress on linear fitness functions", "statement": "On a linear fitness function, the center of a SNES search (rankings nes and centered, at least two solutions for each ranking) is at no time worse than at an earlier time: with the optimisers ClipUp and SGD, and with the solutions shared among actors which each rank their own solutions only, weighted or not; and it gets strictly better without an optimiser as soon as the solutions of one actor are not all equally good. The new center of a distributed CEM search is not worse than the average of all its solutions (gradients weighted by the numbers of solutions, or equally many for each actor). A distributed search is as good a search as a local one: sharing the solutions among actors does not make center or standard deviations NaN.", "quantifier": "all linear functions, dimensions, centers, standard deviations, draws, numbers of actors, ways of sharing, numbers of generations and optimiser settings", "why_tests_cant": "A test runs a few random generations with a few actors; the claim is for all draws, all ways of sharing and all lengths of runs.", "anchors": ["src/evotorch/algorithms/distributed/gaussian.py:SNES", "src/evotorch/algorithms/distributed/gaussian.py:CEM", "src/evotorch/algorithms/distributed/gaussian.py:GaussianSearchAlgorithm._step_distributed", "src/evotorch/distributions.py:ExpSeparableGaussian", "src/evotorch/distributions.py:SeparableGaussian._compute_gradients_via_parenthood_ratio", "src/evotorch/optimizers.py:ClipUp", "src/evotorch/optimizers.py:SGD"]}
{"id": "C180", "title": "With order-based ranking, ClipUp almost surely never makes the center NaN", "statement": "ClipUp divides the gradient by its norm, so a zero gradient makes the center NaN. When the fitnesses are ranked by their order (centered, linear or nes ranking) and a generation has at least two solutions, this almost surely never happens: with probability one over all the random draws of a search of any length, and whatever the fitness function (even a constant one) and the initial center and standard deviations, every generation of PGPE (mirrored or not, with stdev_max_change below 1, as by default) and of SNES leaves a center that is a number and positive standard deviations.", "quantifier": "all fitness functions, initial centers and positive standard deviations, all numbers of generations, and almost all sequences of draws", "why_tests_cant": "it is a statement about probability one, over infinitely long searches and all fitness functions; a test sees a few draws", "anchors": ["src/evotorch/algorithms/distributed/gaussian.py:PGPE", "src/evotorch/algorithms/distributed/gaussian.py:SNES", "src/evotorch/optimizers.py:ClipUp", "src/evotorch/distributions.py:SymmetricSeparableGaussian", "src/evotorch/tools/ranking.py:rank"]}
{"id": "C181", "title": "On a linear fitness function the center improves beyond every bound", "statement": "On a linear fitness function that is not constant, with fitness shaping that only looks at the order of the fitnesses, the fitness of the center of PGPE and SNES almost surely gets, and stays, better than any given value, if the search runs for long enough: with a plain positive learning rate if stdev_min is positive, and with ClipUp, whatever happens to the (positive) standard deviations, if the fitness depends on every variable.", "quantifier": "all sequences of independent normal draws outside one set of probability zero; for each of them all linear fitness functions, senses, starting centers and standard deviations, bounds; all population sizes that give at least two solutions, all dimensions, learning rates, gradient divisors, stdev limits, ClipUp settings with positive step size and speed, mirrored or not", "why_tests_cant": "a statement about infinite runs and probability one: no finite run shows that the search does not stall, and the standard deviations may shrink or grow without limit on the way", "anchors": ["src/evotorch/algorithms/distributed/gaussian.py:GaussianSearchAlgorithm._step", "src/evotorch/algorithms/distributed/gaussian.py:PGPE", "src/evotorch/algorithms/distributed/gaussian.py:SNES", "src/evotorch/distributions.py:SymmetricSeparableGaussian", "src/evotorch/distributions.py:ExpSeparableGaussian", "src/evotorch/optimizers.py:ClipUp", "src/evotorch/tools/misc.py:modify_tensor"]}
{"id": "C182", "title": "A NaN or infinite observation spoils its own coordinate of a normaliser, and no other, until the next reset", "statement": "The coordinates of the observations in a RunningNorm are kept apart. Once a coordinate has been given a NaN or an infinity (alone, in a batch, even in a row which the mask leaves out, or through a merged normaliser that has data), then until the next reset, whatever finite or other data follow, its mean is not finite, its standard deviation is NaN and every observation is normalised to NaN there, clipping or not. A coordinate that has only been given numbers has exactly the mean and the variance of these numbers and normalises as if the other coordinates had been clean.", "quantifier": "all histories of single observations, batches, masked batches, merges with normalisers that have histories of their own, and resets; all float values including NaN and infinities; all coordinates, dimensions, clip bounds and minimum variances", "why_tests_cant": "the effect has to be followed through every possible continuation of the history and through merges between actors, for each place where a non-finite value can come in", "anchors": ["src/evotorch/neuroevolution/net/runningnorm.py:RunningNorm.update", "src/evotorch/neuroevolution/net/runningnorm.py:RunningNorm.stats", "src/evotorch/neuroevolution/net/runningnorm.py:RunningNorm.normalize", "src/evotorch/neuroevolution/net/runningnorm.py:RunningNorm.reset"]}
{"id": "C183", "title": "The laws of simulated binary cross-over and polynomial mutation, and what eta does to them", "statement": "For eta > -1, genes with lower bound < upper bound and parents within the bounds, and uniformly distributed draws: a gene selected by PolynomialMutation comes to lie at or beyond any point on either side of the parent with the chances of Deb and Tiwari (2008); for any open intervals between the bounds there is a non-zero chance that all selected genes of a batch come to lie in their intervals at once, wherever the parents are (the documented non-zero probability of generating offspring in the entire search space). The two children of SimulatedBinaryCrossOver differ in each gene by the difference of their parents times a factor with the distribution of Deb and Beyer (2001). With the same draws, a bigger eta puts every gene of every child of either operator between the parent's gene and where the smaller eta puts it, also after clipping.", "quantifier": "all batches, parents, bounds, eta > -1, intervals, draws; chances over uniformly distributed draws", "why_tests_cant": "a test sees samples of the draws, not the distribution, and cannot compare all pairs of eta", "anchors": ["src/evotorch/operators/real.py:SimulatedBinaryCrossOver", "src/evotorch/operators/real.py:PolynomialMutation"]}
{"id": "C184", "title": "A genetic algorithm with PolynomialMutation finds the optimum in the limit", "statement": "On a problem whose lower bounds are below its upper bounds, with PolynomialMutation (eta > -1, mutation probability positive or left out) as the last operator of a GeneticAlgorithm or SteadyStateGA, after any operators which keep inside the bounds: for a fitness function continuous within the bounds and every accuracy, the chance that after k generations the best solution reported by the search is not as good as the optimum up to this accuracy tends to zero with k, at a geometric rate which does not depend on the fitness function except through the set of good solutions, with or without elitism, from any initial population within the bounds. With elitism the same holds for the best solution of the population. With a mutation probability p, a gene of a child is changed with a chance of at most p.", "quantifier": "all fitness functions, bounds, settings, laws of the draws of the other operators, initial populations, numbers of generations", "why_tests_cant": "a limit over infinitely many generations and a chance over infinitely many draws", "anchors": ["src/evotorch/operators/real.py:PolynomialMutation", "src/evotorch/algorithms/ga.py:GeneticAlgorithm", "src/evotorch/core.py:Problem"]}
{"id": "C185", "title": "MAPElites with PolynomialMutation fills every reachable cell, in the limit, with solutions as good as any", "statement": "On a problem whose lower bounds are below its upper bounds, with a deterministic fitness and features continuous within the bounds, and with PolynomialMutation (eta > -1, mutation probability positive or left out) as the last operator of MAPElites, after any operators which keep inside the bounds: for every set of cells, points whose features lie in the interiors of these cells, and every accuracy, the chance that after k generations some cell of the set is not marked as filled with a solution whose features lie in the cell and which is as good as the given point up to this accuracy tends to zero with k, at a geometric rate, from any initial population within the bounds.", "quantifier": "all fitness and feature functions, grids, bounds, settings, laws of the draws of the other operators, initial populations, numbers of generations", "why_tests_cant": "a limit over infinitely many generations and a chance over infinitely many draws", "anchors": ["src/evotorch/operators/real.py:PolynomialMutation", "src/evotorch/algorithms/mapelites.py:MAPElites"]}
{"id": "C186", "title": "On a problem with several objectives, the reported best of every objective reaches its optimum in the limit", "statement": "On a bounded continuous problem with several objectives, a deterministic fitness continuous within the bounds and lower bounds below the upper bounds, searched by GeneticAlgorithm (elitist or not, re-evaluating parents or not, evaluating them first or together with the children) with GaussianMutation (positive standard deviation and probability) or PolynomialMutation (eta > -1, probability positive or left out) as the last operator, after any operators which keep inside the bounds: for every accuracy, the chance that after k generations the best solution reported for some objective (status obj<i>_best) is not within that accuracy of the best value of this objective within the bounds tends to 0, although the population itself may lose such solutions. For every box of good points there is a geometric bound on the chance, the same for all fitness functions.", "quantifier": "all problems with any number of objectives and continuous fitnesses, all bounds, population sizes, modes of the search, operators before the mutation, probabilities, standard deviations and etas, initial solutions inside the bounds, accuracies and numbers of generations", "why_tests_cant": "a limit in probability over unboundedly many generations cannot be observed in a finite run, and must hold for all fitness functions", "anchors": ["src/evotorch/algorithms/ga.py:GeneticAlgorithm._step", "src/evotorch/algorithms/ga.py:ExtendedPopulationMixin._make_extended_population", "src/evotorch/core.py:Problem._get_best_and_worst", "src/evotorch/operators/real.py:GaussianMutation", "src/evotorch/operators/real.py:PolynomialMutation"]}
{"id": "C187", "title": "The functional form of a network keeps the buffers which the network had when it was wrapped", "statement": "ModuleExpectingFlatParameters(net) (make_functional_module) runs, at every call with a parameter vector of the right length, the network with the parameters of the vector and with the buffers net had when it was wrapped, all on the device of the input, whatever happened in between: in-place changes of the buffers of net by its owner, moves of net to other devices, calls with inputs on various devices. Other vectors are refused with a ValueError. The calls leave net's own buffers alone. The property buffers gives the stored buffers.", "quantifier": "all networks with any named buffers (constant during forward passes, as documented) and parameters, all histories of changes, moves and calls, all devices", "why_tests_cant": "aliasing between the network and its wrapper shows only for particular histories of changes and device moves, of which there are unboundedly many", "anchors": ["src/evotorch/neuroevolution/net/functional.py:ModuleExpectingFlatParameters", "src/evotorch/neuroevolution/net/functional.py:make_functional_module"]}
