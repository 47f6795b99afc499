# Formal model of EvoTorch in Lean 4 — design

## 1. Approach

The code in `/repo/src/evotorch` is modelled function by function as small, total, computable Lean functions.
Nothing is executed: the tie between code and model is the citation (`file:lines`) carried by every definition.

Layout of `/verif/lean/Verif`:

* `Model/*.lean`  – the model. Each definition cites the Python lines it models and states simplifications.
* `Spec/*.lean`   – small, model-independent vocabulary used in property statements (bounded deque, multiset facts, ...).
* `Proofs/*.lean` – helper lemmas.
* `Props/*.lean`  – the property theorems (named `C<nn>_...`), each followed by an `example` showing that a concrete
  non-trivial case meets its hypotheses. Theorems with suffix `_partial` prove part of a property; what is missing is
  said in the docstring. Theorems with `_violated` in the name prove the negation of (part of) a documented
  property with a concrete witness: the pinned code does not satisfy it.

Conventions:

* Python exceptions are values: `Except PyErr α`.
* Mutation becomes returning the new state. When an operation raises, the state at the time of the raise is kept where
  it matters.
* Tensors are lists / functions of an index. Batched tensors are lists of per-item states. Shapes are explicit where a
  property is about shapes.
* Real tensors: arithmetic is exact (an ordered field, `ℚ` or `ℝ`), rounding is **not** modelled. Where NaN or infinities
  matter (best/worst tracking, masks, MAP-Elites penalties) an extended type with `nan`, `±inf` is used.
* Random draws are explicit arguments, universally quantified: a theorem holds for every outcome of the generator.
* Sorting (`torch.argsort`) is unspecified on ties: theorems quantify over every permutation that sorts.
* Remote actors/ray: the scheduler is an arbitrary permutation/assignment given as an argument.

## 2. Plan per property

| id | modelled | proof |
|----|----------|-------|
| C01 | one batch item of `CList`: begin/end/data ring buffer, all public operations with `verify=True` | refinement to a bounded deque, induction over histories |
| C02 | `CList` batched with masks, all-or-nothing verification | per-item projection theorem by induction over histories |
| C03 | `_get_underlying_key` on all integers | exact characterisation of accepted keys; negation witness |
| C04 | `CMemory` 0/1 batch dims, key offset, masks, verification | last-write refinement over histories |
| C05 | the five in-place operations, branch by branch | equational; negation witness for unmasked `multiply_`/`divide_` |
| C06 | `CDict` = value memory + existence memory | refinement to `Key → Option Val` |
| C07 | `CBag` with list, shuffle as arbitrary permutation | multiset invariant over histories |
| C08 | `split_workload` | arithmetic |
| C09 | `SolutionBatchPieces` | arithmetic/induction on lists |
| C10 | `_evaluate_all` writing pieces back in an arbitrary order | permutation invariance of disjoint writes |
| C11 | `_get_best_and_worst` as state machine with NaN | invariant over evaluation histories |
| C12 | `compare_solutions`, `is_better`, `is_worse` | order laws |
| C13 | `SolutionBatch` rows with evals; all mutators | invariant over histories |
| C14 | `set_evals` shape logic | case analysis |
| C15 | `argsort`, `argbest`, `argworst`, `take_best` single objective | sorting lemmas |
| C16 | `_compute_pareto_ranks` loop | invariant of the peeling loop |
| C17 | multi-objective `take_best` | lexicographic ordering argument |
| C18 | same, crowding ranks | negation witness; partial theorem |
| C19–C21 | `tools/ranking.py` over an ordered field / ℝ (log) | permutation sums, monotonicity |
| C22–C25 | GA family steps over an abstract operator | invariants over steps |
| C26–C32 | operators with explicit random draws | pointwise lemmas, permutation lemmas |
| C33–C34 | MAP-Elites step and grid | invariant, interval cover |
| C35–C37 | heap models of `ObjectArray`, immutables, `deep_clone` | heap invariants |
| C38–C43 | hooks, lazy status, step/run, restart, loggers | state machines, induction over histories |
| C44–C48 | limits and parameter updates | ordered-field arithmetic, `Real.exp`, matrix exponential |
| C49–C56 | sampling/gradient algebra, optimisers, distributed averaging, adaptive loop | algebra over lists/finsets |
| C57–C59 | `RunningNorm`, sync protocol | homomorphism from multisets of observations |
| C60 | `expects_ndim` repeated vmap | induction on extra dims |
| C61–C63 | parser, flat parameters, layered state | structural induction |
| C64–C66 | vectorised rollout, alive bonus, minibatch iteration | simulation by induction over steps |
| C67 | constraints | ordered-field case analysis |
| C68–C70 | seeds, integer sampling, index normalisation | modular arithmetic |
| C71–C72 | CMA-ES recombination, stdev limits | convexity; negation witness for decomposability |
| C73 | `ReadOnlyTensor` name filter and storage sharing | invariant over derivation histories |
| C74–C75 | popsize splitting for gradient sampling | arithmetic |
| C76 | crowding distances of one front | comparison with the NSGA-II definition on sorted objective values |
| C77 | `ExpGaussian` covariance getters | matrix algebra; negation witness (transposed product) |
| C78 | `relative_entropy` of Gaussians | inequality `log x ≤ x - 1` |
| C79 | initial stdev from radius, class-based and functional | equality of formulas |
| C80–C81 | distributed gradient and evaluation averaging | list algebra; negation witnesses |
| C82–C83 | CMA-ES updates and option handling | positive-definiteness of sums; case analysis |
| C84 | `RunningNorm` storage of the caller's tensors | heap model; negation witness |
| C85–C86 | `SyncVectorEnv` and space checks | simulation per sub-environment; case analysis |
| C87 | Gaussian sampling from given draws | pointwise equations |
| C88 | elementwise layers | pointwise equations over ordered fields and reals |
| C89–C90 | recurrent layers, feed-forward networks | induction over the sequence of inputs and over the list of layers |
| C91 | the clock of `LocomotorNet` | induction over the calls |
| C92–C93 | constructor arguments of `Problem`; numbers of actors and of GPUs | case analysis over all argument combinations; negation witnesses |
| C94 | `generate_values` for numeric problems | order algebra on explicit draws; negation witnesses |
| C95 | batches over a heap of rows | invariant over histories: objects of different origin use disjoint cells |
| C96 | indexing and iterating a batch | case analysis on the sign of the index; negation witness (`<=`) |
| C97 | `utility`, `utils` | order algebra with infinities |
| C98 | `ProblemBoundEvaluator` | row-major index arithmetic |
| C99 | `SolutionBatch(like=...)` | case analysis; negation witness (missing method) |
| C100 | operators on a heap of solution batches | frame lemmas over heap writes |
| C101 | `_do_tournament` rate arithmetic | floor/ceiling arithmetic; negation witness |
| C102 | `SinglePopulationAlgorithmMixin` status items | case analysis over options; negation witnesses |
| C103 | `_start_preparations`, `NEProblem._prepare`, copying, actors | invariant over histories; negation witnesses |
| C104 | class-based and functional PGPE/CEM | simulation relation over generations; negation witnesses |
| C105 | vectorised `Policy`: parameters, hidden states, resets | induction over histories of calls; lane projection; negation witnesses |
| C106 | devices of fitness functions (`on_device`, `on_aux_device`, `vectorized`) | case analysis over decorators and settings; negation witness |
| C107 | `to_policy`, `save_solution` of `GymNE`/`VecGymNE`, wrapper modules | step simulation, induction over episodes; heap model for memory; negation witnesses |
| C108 | `dtype_of_container`, `device_of_container`, `cast_tensors_in_container` | memoised graph traversal with fuel; reachability invariant; `Heap` refinement for casting |
| C109 | `Distribution` objects: construction, `to`, `modified_copy`, setters; dictionaries of `ExpGaussian` | exact acceptance conditions; invariant over histories; negation witnesses |
| C110 | `FunctionalSampler`, `FunctionalGradEstimator` | permutation argument for keywords; composition with C60 |
| C111 | `TensorMakerMixin` and the makers of `tools/misc.py` | exact characterisation of successful calls; negation witnesses |
| C112 | `ImmutableSequence`/`ImmutableList`/`ImmutableSet`/`ImmutableDict` and `as_immutable`, `mutable_copy` | mutual induction over nested values; negation witnesses |
| C113 | functional CEM, PGPE, Adam, SGD and ClipUp with extra leading dimensions | induction over generations; the batched run equals the family of the single runs |
| C114 | gradients and updates of the three Gaussian families, with the log-density over the reals | derivative of the weighted log-likelihood (Mathlib's `HasDerivAt`); first-order improvement |
| C115 | whole generations of XNES, SNES, PGPE, CEM and CMA-ES | simulation between two runs, by induction over generations; uniqueness of the Cholesky factor |
| C116 | `update_sigma`, the evolution paths, `_h_sig` and the decomposition schedule of CMA-ES | order lemmas; Mathlib's variance of independent sums; induction over generations |
| C117 | `PyCMAES`: options handed to the external package, ask/tell loop | the external package as an arbitrary state machine; equality of call sequences; negation witness for bounds |
| C118 | `_make_env`/sub-batching of `VecGymNE` under `max_num_envs`, with and without actors | bound on every environment created over a history; negation witnesses |
| C119 | `GymNE._use_policy`, action part of the `VecGymNE` loop, `take_step_in_env`, `reset_env`, `TorchWrapper` | order lemmas for clipping; case analysis of answers; induction over call sequences; integral for the mean of the noise |
| C120 | `Problem.evaluate` with hooks, actors, synchronisation, preparation, shared attributes, status; `EvaluationActor.get/set`, `RemoteMethod` | event traces; invariants over histories of calls; negation witnesses |
| C121 | The gradients computed from `make_gaussian` populations as functions of the draws; the draws independent standard normals (Mathlib's `gaussianReal` and `Measure.pi`). Differentiation under the integral for the slopes of the expected fitness, independence of different members for the centred sums, symmetry of the draws for mirrored populations. |
| C122 | `Solution` as a one-row batch of addresses into a memory of rows; set, access, clone, move. Frame lemmas by induction over histories of operations on several handles. |
| C123 | The assertions of `evotorch.testing` on arrays of floats, integers and booleans with casts; each passes exactly if its claim is true of floating point data; violated for integer data, which is rounded before the comparison. |
| C124 | Constructor, `repeat` and numpy conversions of `ObjectArray` on the heap of C35; frame lemmas over histories; negations for `repeat(n)`, slices of read-only arrays and repeated positions. |
| C125 | `Hook` as a mutable sequence with the mixin methods of `MutableSequence` over its five methods, refined to lists; the call loop with a position into a list which the functions may change. |
| C126 | `Model/AlgoConfig`: constructors of the distribution-based algorithms and optimisers by name; exact acceptance condition and resulting settings by unfolding, facts about the default formulas over ℝ |
| C127 | The status view over the reporter of C39, with values in memory that can or cannot be written; the step counter and first-step time as a state machine. Invariant over arbitrary histories of reporter operations (keys distinct, values only for keys, keys never removed); induction over keys for printing and `dict`; the clock refines a declarative description over the event list of any history. |
| C128 | Constructors of all operators as functions of problem and arguments, and the success and child count of a cross-over call. Acceptance as equivalences with declarative conditions (truncation, meaning of an index); the child count as the unique even number in an interval; witnesses for accepted configurations that can never be called. |
| C129 | `_batch_info_dicts` as a fold over the dictionaries with the three accumulators of the loop; the result is characterised key by key against a specification of uniform keys |
| C130 | Spaces as shapes with flattened bounds; batching, unbatching and the wrapper as functions on spaces; names as character lists, options as dictionaries; round trips for every batch size, and the result of every constructor call |
| C131 | dtypes of both libraries as finite types with the translations as oracles of the libraries; values as an inductive type (scalars, tensors, iterables); case analysis for scalars, induction over the items for vectors |
| C132 | `Model/PickleFile.lean`: names (decimal digits, padding, path joining), collection of items, statistics, policy and times, and writing with three outcomes (cannot be opened, cut short, complete). The files are a function from names; a history is a list of saves, each with its own search state and luck. Names: value of a padded digit list; order: induction over digit lists of equal length. |
| C133 | `Model/Report.lean`: the filter, the firing of the logger (from `Model/Logger.lean`) with an arbitrary reporting function behind it, and the seven reporting functions; services are the lists of what they received. Generic theorem over any reporting function that does not raise, then one theorem per service by induction over the reports; data frames by an ownership invariant over interleavings of reports and writes. |
| C134 | `Model/Randomness.lean`: generators of problems, global generators, and the route by which each draw finds its generator, per site in the code; programs are trees of draws. Noninterference by induction over programs; schedules by induction over the list of threads that draw. |
| C135 | `set_default_logger_config` on a chain of loggers with handlers, levels and propagation; a list iterated by position while it shrinks; induction over calls; negation for `override=True`. |
| C136 | Tensors with identity, shape, dtype, device and elements; each utility as a function to a value or an exception; exact input/output characterisations; negations for integer bounds, numeric shapes and PyTorch dtypes. |
| C137 | Model `NEConfig`: choice of the environment, the constants of `GymNE` and `VecGymNE` for strings and callables, `pass_info_if_needed` with a model of signatures and keyword calls, alive bonus schedules, and the arguments that reach `Problem.__init__` (model of C92). Proved by computing the dictionaries for the usual spaces and by lookups in merged dictionaries. |
| C138 | The rollout loop, `run`, `visualize` and the evaluation of `GymNE` over arbitrary state machines for environment, policy and noise, with fuel for the loop. Specification: an inductive relation saying that a policy plays a list of steps, and when such a list is a whole episode. Proved by induction on the fuel and on the number of episodes. |
| C139 | `SolutionBatch` tables under slices, index lists, masks, tuples, merging, splitting; the branches of the constructor. Specification: a selection relation between a batch and a list of row numbers, well-formed batches, concatenation of rows. Proved by induction over index lists, masks and sizes of pieces. |
| C140 | `RecursivePrintable.to_string` over a heap of containers with a bounded stack. Specification: a relation saying which text a finitely nested object has. Proved by induction on the depth. |
| C141 | The positions of `NetParsingError` as functions of the text before the faulty node, and `ErroneousResult`. Proved by induction over the text. |
| C142 | The argument checks of `make_feature_grid` on tensors with shape, dtype and device, and the comparison of features with cells including PyTorch's alignment of shapes. Proved by cases. |
| C143 | `sample_and_compute_gradients` with its helper: objective, sense, devices, dtype, form of the result and hooks; sampling and the gradients themselves are arbitrary functions. Proved by cases and by induction over the tasks. |
| C144 | `save_solution` of `GymNE` and `VecGymNE` on files by name; pickling and exporting are parameters. Proved by cases. |
| C145 | `make_dataloader`, `_evaluate_using_minibatch`, `loss`; PyTorch's `DataLoader` as passes over arbitrary permutations | the chunks of a pass, composed with the request machine of C66 |
| C146 | `violation`, `penalty`, `log_barrier` as calls through `expects_ndim` | composition of C60 (batches) with the scalar model of C67; negation witnesses |
| C147 | `all_remote_problems`, `all_remote_envs`, `RemoteMethod`, `call_on_env`, `kill_actors` over a cluster of handles | induction over any execution order of the tasks; negation witnesses |
| C148 | `as_immutable`, `mutable_copy`, `deep_clone`, `ObjectArray.clone/numpy/__setstate__` on nested values with object arrays | mutual induction over nested values; identities for sharing; negation witnesses |
| C149 | Model/SearchCopies: any number of searches, each a state moved by an arbitrary step function and its draws, with loggers; a `PicklingLogger` holds a weak reference, which a deep copy leaves as it is. Histories are lists of operations (make, attach, step, end of run, copy, give up). Spec: the past of each search (its draws, inherited by copies). By induction over histories; what one operation reports is related to the searches after it. |
| C150 | Model/NanSelection: the existing models of sorting, ranking and elites, on columns of floats with NaN; `torch.argsort` is a parameter with its contract (NaN above every number). Elitist runs with arbitrary operators. By the sorted order for single calls, by induction over the steps for runs. |
| C151 | Elitist steps as `take_best` over parents and children, on top of the models of Pareto ranks and crowding (C16, C17); size, candidates and dominance for every step, progress by induction over the steps while the fronts fit; the loss of an extreme solution by a witness. |
| C152 | Counting the draws with which a solution wins, on the model of tournaments (C29): the draws within the solutions ranked at most as high, minus those within the ones ranked lower; independence as a product of counts. |
| C153 | `Verif/Model/GlobalSearch.lean`, `Verif/Spec/GlobalSearch.lean`: `GA.step` with `gaussianMutation` as last operator; the chance of missing a fitness after k generations is an iterated upper integral over uniform and normal draws. Proved by a lower bound of the chance that one child lands in a box, and elitism (C22), by induction on k |
| C154 | The functional optimisers of `Verif/Model/Optimizers.lean`; runs are folds over gradient histories. Induction over the history: closed forms for constant gradients, the triangle inequality for the distance, Cauchy's inequality for Adam's bound |
| C155 | indexing of `CMemory` for batch shapes of any number of dimensions (torch's broadcasting of index tensors), shapes of keys with a mask, memory of results, `is_batched` | an exact condition on the batch shape; violations for two sizes, squares, `(n, 1)`, keys with a mask, results that change |
| C156 | `CMAES.__init__`: checks of the problem, objective, population size, generation of the population, shape of the center after `squeeze` | case analysis of the accepted arguments; violations for one variable, for problems that cannot generate, for a population of 1 |
| C157 | `as_immutable`/`ImmutableList` of iterables, with the addresses of the items and the memo keyed by them; the tuple-reusing iterators of CPython | induction over nested objects with a memo that agrees with a heap; exact characterisation for flat tuples; negation for every dictionary of three items |
| C158 | the network of a neuroevolution problem as an object with parameters, other contents and a mode; `run`, `parameterize_net`, `make_net`, SupervisedNE | simulation between runs from related states; negation witnesses |
| C159 | `Model/Unchecked.lean` gives the structures with `verify` as a parameter; helper theorems show that `verify=True` is the models of C01–C08. Accepted histories are compared by induction, with the bounds of the ring buffer's ends as invariant; the unverified list is shown to refine `Spec/LenientDeque.lean` for every history. |
| C160 | `Model/Interrupt.lean`: the state an interrupted `_step` leaves behind, for every point of interruption and every subset of evaluated rows, beside the completed steps of `Model/GA.lean` and `Model/MapElites.lean`; Gaussian searches and CMA-ES with arbitrary update rules. Proved with one lemma (`repeatable`): if a completed step cannot tell the interrupted state from the one before, then histories ending with a completed call are those of the completed calls. |
| C161 | A format is a number of bits and a least exponent; the floating point numbers are the rationals `m * 2 ^ e`; a rounding is any function that returns a nearest one. The arithmetic of `make_uniform`, `compare_solutions`, `violation`, the pieces, `take_best`, `centered`, `linear` and the ratios is written with every operation rounded; so are `modify_tensor` over a run of updates and the sums of `RunningNorm`. Proofs: rounding is monotone and fixes the numbers of the format; the gap to a neighbour is compared with the rounding error; a rounding function is constructed, so that the hypotheses are met. |
| C162 | Random words are counted: a chance is the proportion of equally likely words (or tuples, or permutations) for which the model produces the result. Integers by counting residues in the (at most two) intervals which the words become after the shift; independence by counting products; mutation by counting the steps of the uniform generator below the probability; cross-over by induction on the number of cuts; orders by the symmetry of the permutations of the noise. |

| C163 | Memory of tensors and of the lists of best solutions; the steps of the searchers as sequences of allocations and writes in place; reads of the status as references into this memory. Proof: the tensors that are overwritten (population, batches of the step) are disjoint from the reported ones, an invariant of all histories. |
| C164 | `linspace` as PyTorch's kernel computes it (first half from the lower bound, second half from the upper), with every operation rounded to the default dtype, and the bounds cast to the requested dtype first. Proofs: the relative error of rounding bounds the step and the products, so the two halves do not cross and the edges are ordered; then the lemmas about consecutive intervals of C34. |
| C165 | The states of `cem`, `pgpe` and of the functional optimizers are modelled with tensors reduced to dtype, device and shape; PyTorch's type promotion (dimensioned tensors over tensors without dimensions over numbers) and its device check are small functions of the model. Initial states by inversion of the constructors, histories by an invariant (vectors of one dtype, numbers of the initial one) and induction over the `tell`s; the dtype reached is characterised as the smallest one that holds all populations. The behaviour with `radius_init` and with centers of integers is proved to break the property. |
| C166 | `Verif/Model/MemoryShapes.lean` models the arguments of the memory's constructor and keys, values and masks given as numbers, sequences or tensors of any shape. The theorems say exactly which arguments and calls are accepted, and that an accepted call updates the slots of the selected positions element by element, with the number meant for each. |
| C167 | `Verif/Model/SeededDevices.lean` models `manual_seed`, the devices of networks and of gradient requests, the draws of a request and the start of an actor, as devices only. The theorems range over every history of seeding, steps, requests and copies into actors, by an invariant: an own generator is on the device of the problem. |
| C168 | Runs of `GeneticAlgorithm`, `SteadyStateGA`, `Cosyne` and `MAPElites` (the step functions of `Model/GA.lean`, `Model/MapElites.lean`) with sequences of calls of the library's operators (`Model/Operators.lean`), all draws as arguments. Proved by induction over the steps from a per-call lemma: a predicate on the genes of each column which every call preserves holds in every population and in all solutions a step evaluates. Instances: being within the bounds; standing in the same column of the first population. |
| C169 | `_make_extended_population` and `Cosyne._step` with a record of the calls of `problem.evaluate` and of the operators (`Model/Budget.lean`), shown to be that of the steps of `Model/GA.lean` (C169_record); the derivation of `_re_evaluate_parents_first` from the arguments; `_use_operators` as a sequence of operators. Budgets by induction over the steps with the size invariants of C22 and C25; freshness by cases on where a solution of the next population comes from; what the operators see by an invariant. |
| C170 | Model: `Verif/Model/Illumination.lean`: `MapElites.step` (C43) with children made by any operators followed by the mutation of C09, on a problem with a real fitness and real features. Spec: `chanceNot`, the nested upper integral over the draws of k generations; `Holds`, a cell filled with a solution whose features lie in it and whose fitness is not worse than a level; `hitChance`. Proof: one general lemma (an invariant, a state that is kept once reached, and a chance of reaching it from every state of the invariant give a geometric bound), instantiated with the exact description of a MAP-Elites step; continuity gives a box around the point; cells are combined by a union bound for upper integrals. |
| C171 | Model: `Verif/Model/ReportedBest.lean`: a generation of `GeneticAlgorithm` or `Cosyne` (C22, C25) whose record of evaluations (C169) is fed to the statistics of the problem (C11). Spec: `Reports`, the stored best carries its own fitness and is not worse than a level; `chanceNot` of C170. Proof: the statistics are those of some honest history (an invariant), so the report is at least as good as everything evaluated and as every former report; every step evaluates the mutated children of parents that do not depend on the draws of the mutation; the general bound of C170 gives the rate, continuity the limit. |
| C172 | The model of C71/C82/C116 (`Model/CMAES.lean`). The order of the population is a constant list and the draws have the law `draws n d` (independent standard normal). Moments: `E[z_k z_l] = [k=l]`, and by the symmetry of the draws `E[z_k z_l / |z|²] = [k=l]/d` (sign changes and permutations preserve the law), so that both the plain and the rescaled weights of the rank-mu update contribute their weight times the covariance; the recombined step has covariance `C / mu_eff`. `C172_full_run` integrates generation after generation, using C82 for the decomposition. The separable variants are refuted with the strict inequality `E[1/|z|²] > 1/d` (`recip_mean`); the average exists for `d ≥ 3` by the inequality of the means (`integrable_recip`). Whether the path stalls is given, as it depends on the same draws. |
| C173 | Over the generations of `Model/Generations.lean` with the fitnesses given: the new center and the spread in additive terms are a constant plus a weighted sum, with weights fixed by the fitnesses, of functions of independent draws with mean zero. For XNES, the determinant of the exponential of a symmetric matrix is the exponential of its trace. For CEM, the unbiased variance of independent draws; the strict decrease of the standard deviation by its positive variance (the draws have full support). Runs by induction over nested averages. |
| C174 | For linear fitness functions `b + a·x` over the whole generations of `Model/Generations`: the utilities grow with quality and (centred) sum to zero, so their product with the fitnesses is non-negative by the pairwise identity, strictly positive when neither is constant; the step of the center is a non-negative multiple of the weighted displacements. PGPE, XNES and SNES pointwise in the draws and by induction over runs; a counterexample for SNES with `linear`; CEM and CMA-ES (through `center_weights`, the lemma behind C71) pointwise against the average solution and, by integrating over the Gaussian draws, on average against the old center; the fitness of the new center is continuous in the draws, as it is a maximum over subsets (CEM) or orders (CMA-ES, by the rearrangement inequality). |
| C175 | `Props/SphereConvergence` on `Model/Generations` (`pgpeGen`): the center after a generation in closed form (mirrored pairs cancel the quadratic part), then second and fourth moments of normal draws (`Proofs/FourthMoments`), independence of the directions, induction over the generations on nested averages, and limits of geometric sequences. |
| C176 | `GenerationsOptim` composes the generation of PGPE with the optimisers of `Optimizers`. By C174 the gradient of a generation has a nonnegative product with the direction of the linear function (positive if the solutions are not all equally good). The velocity of ClipUp and the buffer of SGD are nonnegative combinations of such gradients and clipping is a nonnegative scaling, which gives an invariant of whole runs. Adam scales the coordinates differently: a concrete generation makes the center worse. |
| C177 | `GenerationsOptim.distGradients` composes the gradients of each actor with `GradSampling.combine` (the averaging of `_step_distributed`). By C55 the result is an average with positive weights, by C174 each actor's gradient does not point to worse places, and the invariants of C176 apply to any such gradient. For raw fitnesses the gradient of the center is a plain average over directions, so averages of averages with the right weights are the average over all directions. |
| C178 | Averages over runs by induction over the generations: the average gradient comes from C175; the average after T generations is a linear function of distance and velocity, so that integrals pass through. Convergence of second-order linear recursions in the stability triangle by a Lyapunov function and backward contraction. |
| C179 | The gradient of SNES points to better places (C174); averages of such gradients do too; the optimisers keep this (C176). For CEM the fitness of the pooled center is the average of the fitnesses of the actors' centers. A NaN-aware version of the CEM generation shows when there are numbers. |
| C180 | The gradient of the center is, in each coordinate, the standard deviation times a combination of the draws whose coefficients come from a permutation of a fixed list of utilities in which one value occurs once. So the draws that make it zero lie in a finite union of hyperplanes, which has measure zero under the Gaussian product measure (Fubini over the coordinate with a nonzero coefficient) and does not depend on the fitness function or the state. The infinite product measure covers all generations; positivity of the standard deviations follows from stdev_max_change < 1. |
| C181 | Normal draws far out for the first solution and near for the others have a positive probability that does not depend on the history; by the second Borel-Cantelli lemma they recur almost surely. Such a generation moves the center uphill by a fixed amount (utilities are one collection in some order, sums of ordered products); no generation moves it downhill (C174, C176). `Props/LinearDivergence`. |
| C182 | Histories over floats with NaN and infinities, run by the model of C57. Invariant by induction over the history: a tainted coordinate holds a non-finite sum and a sum of squares that is +inf or NaN, so that the variance is inf - inf. Other coordinates: two histories that agree at a coordinate give states that agree there; then C57. `Props/TaintedNorm`. |
| C183 | `polynomialMutation` and `sbx` of `Model/Operators` as functions of their draws; the sets of draws leading beyond a point are intervals whose lengths are the published chances; a batch is a product; `eta` enters as the exponent of a power mean, which grows with it. |
| C184 | `Model/GlobalPolynomial`: the generation of C171 with `polynomialMutation` in place of the Gaussian mutation. By the law of C183 and compactness, a child falls into a given box with a chance bounded below wherever its parent is; the rest is the argument of C153 and C171. |
| C185 | `MAPElites` whose last operator is `PolynomialMutation`, as in C170 and C184. Every gene reaches an interval of the bounds with a chance bounded below wherever its parent is (C184); a filled cell never gets worse (C20). The two facts give a geometric rate per cell; a union bound gives all cells. |

| C186 | `Model/ParetoReports.lean`: one generation of a `GeneticAlgorithm` with several objectives in all its modes, followed by `_get_best_and_worst` for each evaluated batch. The reported best of each objective is never worse than anything evaluated (`BestWorst.run_inv`), and each generation a child lands in a given box with a chance bounded below, so the chance of not having reported the box decays geometrically; union bound over the objectives. |
| C187 | `Model/FunctionalBuffers.lean`: a store of tensors with devices, the references of the network and of the wrapper, cloning, `as_tensor`, in-place changes and moves by the owner, calls. Invariant over histories: the references of the wrapper are apart from those of the network, and refer to the original values. Disagreement: the property `buffers` gives names. |
<!-- plan:next -->

Properties from C88 on were added as the model grew.

## 3. Trusted base

* Lean 4.33.0's kernel, which checks every proof term. No `native_decide`, `bv_decide`, `sorry`, own axioms, `implemented_by` or `unsafe` is used. `decide +kernel` is used for closed arithmetic facts of witnesses and
  examples; it evaluates in the kernel.
* The axioms `propext`, `Classical.choice`, `Quot.sound` of Lean's core library; section 6 lists them per theorem.
* Mathlib's definitions of the notions which appear in statements (`List.Perm`, `Multiset`, `Matrix.PosDef`, `Real.exp`, `Real.sqrt`, `Finset.sum`, ...).
* The reading of the Python source recorded in the citation of each definition. There is no mechanical link between `/repo` and the model; it was transcribed by hand, function by function.
* The meaning attributed to libraries (torch, numpy, ray, gymnasium, ast), stated in the comment of the definition which uses it. Where possible it is a parameter with a stated hypothesis (sorting routines, random
  draws, schedulers, environments, networks) so that theorems hold for every library behaviour meeting the hypothesis.

Not modelled anywhere:

* Floating-point rounding, overflow and underflow. Arithmetic is exact; NaN and infinities are modelled only where a comment says so (`Model/Flt.lean`).
* GPU placement, memory layout, autograd graphs, `torch.compile`, performance.
* Processes, serialization of messages and failures of ray actors; an actor is a pure state, and the scheduler an arbitrary assignment.
* Real time, files, MLflow/W&B/Neptune back ends, printing and `repr`.
* The distribution of random numbers. Theorems quantify over the draws; claims about probabilities are not made.
* The gymnasium/brax environments and the user's functions: arbitrary functions of explicit state.

Section 7 lists, per source file, which functions have a model and which have none.

## 4. How statements relate to the model

Property theorems live in `Props`. Vocabulary for stating them is either Mathlib's or is defined under a heading "Specification" in the same file (or in `Spec`), without reference to the helper functions of the model: a
bounded deque for `CList`, `Key → Option Val` for `CDict`, multisets for `CBag`, "dominates" for fronts, right-aligned items for `expects_ndim`, and so on. The model appears in a statement only as the operation under test.

Each property theorem is followed by an `example` with a concrete instance of its hypotheses. Wrong programs are tried with `tools/mutate.py`, which edits one definition in a scratch copy, rebuilds the theorems and
records the result in `seeded/LOG.jsonl`. Theorems added or strengthened because an edit survived are named in the field `tightened`.

## 5. Where the code disagrees with its documentation

Found while proving; each is a theorem with `violated` in its name, or a documented remark next to the theorem named.

* Containers (`tools/structures.py`): `CList` accepts the index `max_length` (C03); a first `append` of a wrong shape and a masked `clear` behave differently from the documentation (C01/C02 remarks). `CMemory.multiply_` and
  `divide_` without a mask add instead; `divide_` of integer memories is not a division (C05). `CDict` reads the existence memory uninitialised if it was never cleared (C06 remark). `CBag` returns values that were
  never pushed for a high value range or a narrow dtype, and cannot pop at all without a batch dimension or with several (C07).
* Solutions (`core.py`): the objective index equal to the number of objectives is accepted by `SolutionBatch` (C70). A NaN hides the other solutions of its batch from best and worst, and a first batch with NaN raises AttributeError (C11).
  `take_best` uses an argsort permutation as crowding ranks (C18). `set_values` on an object batch which fails midway leaves stale evaluations (C13 remark).
  `batch[len(batch)]` is accepted (C96). `SolutionBatch(like=...)` without `empty=True` raises AttributeError (C99). A single invalid objective sense and an integer `eval_dtype` are accepted (C92). `num_gpus_per_actor="max"` without
  actors divides by zero, `num_actors="num_devices"` with a GPU main device raises TypeError (C93). Initial bounds outside of the bounds, and reversed bounds, are accepted (C94).
* Ranking: centered and linear ranks of a single solution are 0/0 (C19 remark).
* Algorithms: `GeneticAlgorithm(re_evaluate=True, re_evaluate_parents_first=False)` may keep unevaluated or worse parents (C23). `PolynomialMutation` gives NaN where the bounds coincide (C26). CEM with one elite, and functional CEM/PGPE
  with a zero stdev and infinite `max_change`, give NaN (C46, C51). XNES refuses an optimizer through a KeyError (C48) and cannot run distributed (C80); the reported covariance is transposed (C77). More actors than solutions make
  `mean_eval` NaN (C81). An odd `popsize` is not refused without actors (C75). CMA-ES: separable default rates exceed one for large populations (C71/C82), stdev limits break the covariance (C72), numeric `c_1`/`c_mu`
  raise AttributeError (C83).
  `cross_over_rate` gives half of the documented number of children (C101). The population mixin: a string as `exclude` excludes nothing, and excluding `pop_best` makes `pop_best_eval` None (C102). Without `stdev_min`, the standard
  deviation of the class-based PGPE/CEM can become negative where the functional one stops at 0, and an initial value outside of the limits is treated differently (C104).
* Neuroevolution: a problem without actors which has evaluated cannot be copied or pickled and then evaluated; a problem with its own generator cannot use actors; `kill_actors` without actors raises TypeError (C103).
* Optimizers: ClipUp divides by the norm of a zero gradient (C52); its parameter group never refuses a value (C54). In `modify_tensor` the lower bound yields to `max_change` (C44 remark).
* Objects: assignment between overlapping views of an `ObjectArray` smears values, `clone(preserve_read_only=True)` is writable (C35). Tuples come back as lists from immutable copies and sets of tuples raise TypeError (C36).
  `ReadOnlyTensor` can be written through `out=(t,)`, a numpy round trip, `as_subclass` (C73).
* Neuroevolution: masked-out NaN rows pollute `RunningNorm`; an all-False first mask leaves it unusable (C58); a first single observation is aliased (C84). Statistics gathered by `run` on the main problem are multiplied or lost with
  actors; an idle `VecGymNE` actor makes the evaluation fail; after `kill_actors` the counters so far are multiplied by the number of actors, or fall back to the time of the last pickling (C59). `SyncVectorEnv` does not compare action shapes, `GymNE` never checks the action space (C86). With actors, a "common" minibatch is not common (C66).
  Calls by dotted names in network strings raise AttributeError (C61). `Policy.set_parameters` with indices overwrites the caller's tensor, and resetting a policy does not reset the time of a `LocomotorNet` (C105).
  `GymNE.save_solution` fails before the first observation if observations are normalised; a network exported by `VecGymNE` shares the memory of a cpu tensor (C107).
* Fitness functions on devices: the check for an overridden evaluation compares bound methods with `is`, so its RuntimeError is never raised (C106).
* Distributions: an explicit dtype does not help if the given tensors differ in dtype, also in `modified_copy`; `ExpGaussian` writes into the dictionaries of its caller and keeps the inverse of the old `sigma` (C109).
* Tensor makers: the random ones refuse names of dtypes; `make_randint` cannot use the evaluation dtype; `make_empty(out=...)` is a TypeError, and for object arrays elsewhere than on the cpu it returns an exception; what contradicts
  `out` is dropped; `make_ones` and `make_nan` refuse an `out` without dimensions; a problem with object dtype cannot make zeros, ones or NaN; the function `as_tensor` does not move tensors and makes `float64` ones without a dtype (C111).
* comparing an `ImmutableList` with something that is not iterable raises `TypeError` instead of giving `False`, and such a list equals any iterable (a string, a
  dictionary) which iterates over equal items; asking whether a tuple is in an `ImmutableSet` raises; a pickled `ImmutableSet` cannot be loaded; a dictionary with
  tuple keys can be made immutable but has no mutable copy (C112).
* `PyCMAES`: bounds given in `cma_options` are silently replaced when the problem itself has bounds (C117).
* `VecGymNE`: with actors, `max_num_envs` never reaches them, and naming the number of actors ("max", "num_cpus") makes the constructor fail (C118). Action noise is uniform in [0, stdev) instead of Gaussian; both `GymNE` and
  `VecGymNE` ignore the start of a discrete action space (C119).
* Shared attributes of a problem are sent to its actors at the first evaluation only: replaced actors never get them, later changes do not reach the actors (C120).
* `batch[len(batch)]` is not refused; reading it raises an IndexError, `set_values` on it does nothing (C122_violated_end). `solution.set_values(x)` with one number sets all decision values to it (C122_violated_scalar). Writing to a tensor got from `access_values()` after a later evaluation leaves the solution marked as evaluated (C122_violated_stale).
* Testing assertions (C123): with integer data, the other operand is cast to the integer dtype before the comparison: `assert_allclose([1.9], int array [1], atol=0)`, `assert_almost_between(int array [0], 0.5, 2)` and `assert_eachclose(int array [1, 1], 1.5, atol=0)` pass.
* ObjectArray (C124): `objs.repeat(3)`, the documented call, raises a TypeError (the code subscripts the number; only `repeat((3,))` works), and `repeat((3, 5))` is silently `repeat((3,))`. `ObjectArray(slice_of=(a, slice(None)))` of a read-only array is a writable view. `ObjectArray(slice_of=(a, [1, 1]))` has two elements which are the same cell.
* Hooks (C125): a function which removes itself from the hook while the hook is called makes the hook skip the next function (the call iterates over the live list).
* Configuration of the searchers (C126): a `stepsize` in `optimizer_config` is silently overridden by the center learning rate; a symmetric PGPE with `distributed=True` on a problem without actors accepts an odd `popsize` and fails at its first step; SNES and XNES refuse a non-numeric problem with a TypeError instead of the documented check.
* Operators (C128): `MultiPointCrossOver` has the default `num_points=None`, which raises a TypeError; odd or negative `num_children`, a tournament size of zero and one-point cross-over of solutions with one gene are accepted at construction although no call can succeed; a `cross_over_rate` with `rate * len(batch) < 1` raises an IndexError in multi-point cross-overs; `GaussianMutation` accepts problems of dtype object; `CosynePermutation` raises an AttributeError, not a TypeError, if not given a problem.
* Info dictionaries (C129): the documentation of `SyncVectorEnv` promises info arrays on the target device; arrays that cannot be stacked stay on the CPU, inside a list.
* Vectorized environments (C130): the `start` of a discrete action space is lost when batching (vecrl.py 304), so the wrapper offers actions from 0; boxes of shape `()` can be batched but not wrapped.
* Classification (C131): every predicate on dtypes goes through numpy, so bfloat16 raises TypeError everywhere (misc.py 109); `np.dtype(object)` is not an object dtype for `is_dtype_object` although `to_numpy_dtype(object)` returns it; the empty string passes `is_integer_vector`, `is_bool_vector` and `is_real_vector`; any bytes object passes `is_integer_vector` and `is_real_vector`, because its items are integers.
* Pickle files (C132): the file is opened with `"wb"` and written in place, so a second save under the same explicit name that fails while writing destroys the first file, while `last_file_name` still reports it (`C132_violated_overwrite`). With `RunningNorm` statistics on another device and no observation yet, `.to("cpu")` raises `AttributeError`, so nothing can be saved (`C132_violated_stats`). The times are saved only if the problem has `to_policy` (`C132_no_policy`).
* Randomness (C134): the action noise of `VecGymNE` (`torch.rand_like`) and the seeds of its environments (`random.randint`) come from the global generators even if the problem has its own (`C134_violated_vecgymne`).
* Logger (C135): `set_default_logger_config(override=True)` removes handlers from the list it iterates over, so every second handler survives; from the second such call on, messages are printed twice.
* Tensor utilities (C136): `clip_tensor` of an integer tensor truncates a fractional bound, so elements below it remain; `empty_tensor_like(object_array, shape=3)` raises UnboundLocalError; `make_tensor(..., dtype=object, device="cuda:0")` ignores the device; `numpy_copy(x, dtype=torch.float32)` raises although a PyTorch dtype is documented.
* Configuration of neuroevolution problems (C137): `GymNE` accepts `num_subbatches` and drops it (it is missing in the call of the superclass), so that the population is split into one piece per actor, and `num_subbatches` together with `subbatch_size` is not refused. `VecGymNE` compares `num_actors` with 1, which is a TypeError for "max", "num_cpus", "num_gpus" and "num_devices". For an alive bonus schedule of a wrong length it raises an AttributeError, because the message of the ValueError reads `self._alive_bonus_schedule` before it is set. `GymNE` lets its own `obs_space` and `act_space` win over `network_args` in network strings, `VecGymNE` does not.
* Running a policy (C138): `run` and `visualize` say that `update_stats` is ignored without observation normalisation, but the counters of interactions and episodes still follow it (`C138_violated_update_stats`).
* Making batches (C139): column slices such as `batch[:, 1:]` are not refused and give batches without evaluation columns (`C139_violated_columns`); `take` with a tuple is not a selection: the empty tuple gives the whole batch, others fail (`C139_violated_tuple`); merging checks neither senses nor widths (`C139_violated_merge`).
* Positions of parsing errors (C141): columns are counted in bytes, so they are wrong after characters of more than one byte (`C141_violated_bytes`).
* Arguments of the MAP-Elites grid (C142): features without a number of bins are dropped silently (`C142_violated_bins`); grids for one feature accept solutions with many features and the other way around (`C142_violated_mismatch`).
* Requests for gradients (C143): with actors, leaving the index out is a TypeError even with one objective (`C143_violated_none`), `with_stats=False` has no effect (`C143_violated_stats`), and a distribution of another dtype is used as it is (`C143_violated_dtype`). The documentation promises the opposite for the first two.
* Saved solutions (C144): `VecGymNE.save_solution` pickles what was given as the network, so it fails for local functions, after having emptied the file (`C144_violated_architecture`). Sequences are rounded to float32 (`C144_violated_sequence`).
* SupervisedNE (C103, C145): once such a problem has evaluated in its own process it can neither be copied nor pickled (its iterator over the data refuses); a data set of tensors without desired outputs is silently scored, one data point against another, whenever a minibatch has two elements.
* Constraints (C146): with plain numbers only, the documented non-batched case, all three functions raise TypeError; integer tensors make `penalty` (ValueError) and `log_barrier` (OverflowError) fail through their own default values, and drop fractions of multipliers; tensors of different floating dtypes work with `violation` only.
* Remote accessors (C147): `all_remote_envs()` on a `VecGymNE` fails in every actor until something was evaluated; an accessor cannot be copied or unpickled (`__getattr__` recurses), and its deep copy calls `__deepcopy__` on all remote problems.
* Object arrays in immutable values (C148): `as_immutable` of a writeable `ObjectArray` calls `x.clone().get_read_only_view()`, but `clone()` gives a numpy array, hence AttributeError (so it cannot be put into a list made immutable, nor into another `ObjectArray`); a copy of a read-only `ObjectArray` (also one inside an `ImmutableList`) is writeable in spite of `preserve_read_only=True`; an `ObjectArray` holding an `ObjectArray` cannot be copied at all; `deep_clone` of a numpy array of objects shares its contents; `as_immutable` of a read-only view is the view, which changes when its base is assigned to.
* Copies of searches (C149): `copy.deepcopy` of a search with a `PicklingLogger` gives a logger which goes on saving the original (`logging.py` 202: a weak reference, which `copy` does not follow). Running the copy writes files of the original's unchanged state, and nothing at all, silently, once the original is garbage-collected. A search with a `PicklingLogger` cannot be pickled (`TypeError`).
* NaN evaluations (C150): for maximisation `argsort` and `take_best` (`core.py` 3829, 4414) put NaN first, the rankings (`ranking.py` 49, 77) give NaN the largest weights, and an elitist genetic algorithm whose children have as many NaNs as there are places loses its whole population for good. The elites of the cross-entropy method (`distributions.py` 539) are NaN samples first for either sense. For minimisation NaN is treated as worst (except for those elites). Only `utility` checks (`core.py` 4256).
* Elitist multi-objective runs (C151): when a front does not fit into the population, an extreme solution can be dropped although its crowding distance is infinite (the permutation returned by `argsort` is used as ranks, see C18), and with it the best value of an objective.
* Several batch dimensions (C155): the index tensors `arange(size)` of `CMemory` are one-dimensional and broadcast against each other, so with two batch dimensions of different sizes every access is an `IndexError`, with a square batch position `(i, j)` uses the storage of `(j, j)`, and a batch `(n, 1)` gives results of shape `(n, n)`. A common key of a multi-key memory is refused if there is a mask. `is_batched` of `CList`, `CDict` and `CBag` raises `AttributeError`. `get` of an unbatched structure returns a view that later writes change.
* Creating CMA-ES (C156): `center_init.squeeze()` removes the only dimension of a one-variable problem, which is then refused by the check of the shape; `generate_batch(popsize)` without `empty=True` needs initial bounds even if the center is given; `popsize=1` is accepted and makes `mu_eff` 0/0.
* Immutable lists of iterables (C157): `as_immutable` keys its memo by `id(item)` and does not keep the items alive. `as_immutable(d.items())`, `as_immutable(zip(...))` and `as_immutable(enumerate(...))` give a list in which every other element is the first tuple again, since these iterators of CPython fill the same tuple anew when nobody else refers to it.
* Shared networks (C158): the time of a `LocomotorNet` runs on from episode to episode and from solution to solution in GymNE; `run` leaves the given policy in its training mode; exported networks are in their training mode; a module given as the network is overwritten by evaluations.
* Structures without verification (C159): the documentation of `CList.get` says that the default is returned for every index out of range. With `verify=False` the index is reduced modulo the capacity first, so that an index such as `2 * max_length` is answered with an element (`C159_violated_default`).
* Interrupted steps (C160): with `re_evaluate=False`, and in `Cosyne`, the flag saying that the initial population still has to be evaluated is cleared before the evaluation. If it raises, the population is never evaluated; an elitist search that maximises then keeps it for ever, because NaN sorts first. A non-distributed Gaussian search updates its distribution before the evaluation of a later step, so a repeated step updates it twice, the second time from unevaluated samples (or, with `num_interactions`, from the same ones).
* Ratios (C161): `math.floor(num_samples * parenthood_ratio)` and `int(popsize * elitism_ratio)` are computed in floating point, so that 0.29 of 100 is 28. The number can be one less than the exact share, never otherwise wrong.
* Standard deviation (C161): with a `stdev_max_change` of 3/4, updates asking for zero bring a positive standard deviation to exactly 0 in finitely many steps (75 from 1/2 in float32). Below one half it cannot happen.
* Observation statistics (C161): variance is computed as the mean of squares minus the square of the mean, so that in float32 five observations of 3665 get the variance 1 instead of `min_variance`.
* Random choices (C162): `make_randint` and the integer `make_uniform` reduce a word of the result's dtype by remainder, so in `uint8` with `n = 200` the values below 56 are twice as likely as the others. `GaussianMutation` compares the draw with `<=`, so a mutation probability of zero still mutates a gene when the draw is exactly zero (chance `2^-24` in `float32`); `PolynomialMutation` compares with `<` and does not.
* Network strings (C61): a keyword argument given twice, which Python refuses as a syntax error, is accepted; the last value counts.
* Reported values (C163): with several objectives `status["best"]` and `status["worst"]` are the lists which the problem itself goes on modifying (core.py 2395), so that a collected status changes with later steps.
* Feature grid (C164): `make_feature_grid` calls `torch.linspace` without `dtype`, so the edges of a float64 grid have only float32 precision: with the bounds 0 and 0.1, the feature 0.10000000137 is in the bin below the upper bound.
* Dtypes of the functional searches (C165): `_get_stdev_init` announces a standard deviation of the dtype and on the device of the center, but with `radius_init` it multiplies with `torch.ones(solution_length)`, made with the default dtype on the default device. A half precision center then gives a state whose `ask` works and whose every `tell` raises `ValueError` (mismatching dtypes), and a center on a CUDA device raises `RuntimeError` at once. A center of integers (`center_init=[0, 0, 0]`) is refused with an unrelated message because `float("inf")` is cast to an integer, and the functional `sgd` casts its learning rate to an integer and never moves.
* Memories (C166): `add_` and `multiply_` take lists and tuples as values, but `subtract_` and `divide_` compute `-value` and `1 / value` first and raise `TypeError` for them (`C166_violated_sequences`).
* Seeded problems (C167): `_sample_and_compute_gradients` samples on `_grad_device` with the generator made on `device`. A seeded problem on the cpu with an `on_aux_device` fitness function on a machine with a GPU raises `RuntimeError` for every request for gradients (`C167_violated_aux_device`), and a seeded `VecGymNE` with its simulator on a GPU from the second request on (`C167_violated_second_request`).
* Seeded problems (C167): `EvaluationActor.__init__` calls `problem.seed(...)` for problems with their own generator; no class of the library has this method, so that no actor of such a problem starts (`C167_violated_actors`).
* Evaluations (C169): with `re_evaluate=True`, not elitist, operators without cross-over and fewer children than `popsize`, parents keep the evaluations of earlier steps (or none), because the step takes them from the population object instead of the re-evaluated copies (C169_violated_stale; the same defect as C23). In a list of operators with a mutation before a cross-over, the cross-over's tournament is given solutions without evaluations, so that parents are not chosen by fitness (C169_violated_order).
* CMAES (C172): with `separable=True` the covariance drifts although the ranking carries no information. With `active=True` (the default) the negative weights divided by the squared lengths of the draws are also applied to the subtracted old variance (cmaes.py 540-542; the full variant subtracts the sum of the plain weights, 547-550), so every variance grows on average, (informally, by the factor `1 + 2 c_mu alpha / (d - 2)` per generation). When the path stalls, `weighted_pc` is left out (538 against 545) and every variance shrinks on average.
* Optimisers on linear functions (C176): with Adam, a generation of PGPE can make the center worse although the gradient points to better places, since the coordinates are scaled differently (`C176_adam_violated`; inherent in Adam, not a slip of the code). With raw fitnesses and ClipUp, a generation in which all solutions are equally good gives a zero gradient, which is divided by its norm: the center is NaN from then on (`C176_clipup_flat_violated`).
* Distributed CEM (C179): each actor takes floor(n * parenthood_ratio) elites of its own n solutions; if this is zero the mean of no elites is NaN, and the center is NaN from then on, although the same population has elites without actors (20 solutions, ratio 0.1, 4 actors). With one elite each, the standard deviations are NaN. There is no check or warning.
* Spaces of sub-environments (C86): `SyncVectorEnv` checks the kind of the observation space for the first sub-environment only; after observations of shape `()` a discrete one is accepted (`C86_violated_observations`).
* Functional networks (C187): `ModuleExpectingFlatParameters.buffers` ("Get the stored buffers") returns `tuple(self.__buffer_dict)`, that is, the names of the buffers (`C187_violated_buffers`).
* Random tensors: integer ranges are computed in the result's dtype and overflow (C69).
* Hooks and logging: status items computed in the middle of a step are cached (C39 remark); a logger interval of 0 divides by zero (C42 remark).
* `expects_ndim`: surplus positional arguments are dropped; a misspelt variable makes tensors declared as None decide the dtype of numbers (C60).

<!-- generated by tools/design.py -->

## 6. Axioms of each theorem

Output of `#print axioms` for every property theorem (regenerate with `python3 tools/design.py`). No theorem depends on anything but `propext`, `Classical.choice` and `Quot.sound`.

* **no axioms** (17 theorems): C02_violated_masked_clear, C06_violated_fresh_dictionary, C117_bounds_violated, C119_reset, C128_violated_cosyne, C131_round_trip, C131_violated_object, C148_violated_shared, C155_snapshot_partial, C155_violated_snapshot, C160_distributed, C169_record, C39_mid_step_read_stays, C59_violated_idle_actor, C59_violated_run_after, C63_stateful, C99_violated_filled
* **Classical.choice, Quot.sound, propext** (686 theorems): C01_clist_is_bounded_deque, C02_batch_items_isolated, C02_failed_call_changes_nothing, C03_out_of_range_rejected_partial, C03_violated, C04_get_returns_last_write_partial, C04_unselected_key_can_raise, C05_add_circular, C05_bool, C05_inplace_arithmetic_partial, C05_violated_divide_integer, C05_violated_multiply_unmasked, C05_violated_multiply_unmasked_example, C06_cdict_is_dictionary, C07_bag_samples_without_replacement_partial, C08_split_workload_fair, C09_split_partitions, C100_cosyne_permutation, C100_cross_over, C100_cut_and_splice, C100_mutation, C101_half_partial, C101_violated_rate, C102_names_partial, C102_values, C102_violated_exclude_string, C102_violated_excluding_pop_best, C103_partial, C104_cem_partial, C104_pgpe_partial, C104_violated_outside, C104_violated_without_minimum, C105_lstm, C105_rnn, C105_rows_partial, C105_violated_caller, C105_violated_locomotor, C106_evaluation_partial, C107_exports_are_separate, C108_cast, C108_succeeds_iff, C108_terminates, C109_modified_copy, C109_rates, C109_result, C109_to, C109_uniform, C109_violated_exp_constructor, C109_violated_modified_copy, C109_violated_stale_inverse, C10_evaluate_all_eq_sequential, C10_parallel_evaluation_rows_in_order, C10_parallel_evaluation_schedule_independent, C110_batched, C110_dictionary, C110_estimator, C110_filled, C110_keywords, C110_same, C112_atoms, C112_concatenation, C112_equal_to_original, C112_equality_partial, C112_equality_reflected_partial, C112_items, C112_membership_partial, C112_numeric_elements, C112_tuple_key_of_same_length, C112_tuple_keys, C112_violated_comparison, C113_adam, C113_call, C113_cem_ask, C113_cem_run, C113_cem_tell, C113_cem_tells, C113_clipup, C113_optimizer_tell, C113_optimizer_tells, C113_pgpe_ask, C113_pgpe_run, C113_pgpe_tell, C113_pgpe_tells, C113_sgd, C113_single, C114_pgpe_gradients, C114_pgpe_improves, C114_snes_gradients, C114_snes_improves, C114_symmetric_gradients, C114_xnes_gradients, C114_xnes_improves, C115_cmaes_coordinates, C115_cmaes_separable_coordinates, C115_cmaes_shift_and_scale, C115_monotone, C115_offset, C115_rank_monotone, C115_rank_sense, C115_senses, C115_separable_coordinates, C115_xnes_affine, C116_covariance_path_keeps_unit_variance, C116_default_covariance_path_rate, C116_default_rates, C116_full_schedule, C116_path_keeps_unit_variance, C116_period, C116_separable_schedule, C116_stall, C116_step_size, C117_cost_order, C117_is_plain_loop, C117_options_partial, C118_no_limit, C118_violated_actors, C118_within_limit_partial, C119_action, C119_numeric_flags, C119_reset_first, C119_violated_noise, C119_violated_noise_mean, C119_violated_start, C120_failure, C120_order, C120_prepare_once, C120_shared_partial, C120_status, C121_cases, C121_one_solution, C121_plain_mu, C121_plain_sigma, C121_slopes, C121_symmetric, C121_uphill, C122_access, C122_clone, C122_evaluation, C122_handle, C122_other_solutions, C122_set_evals, C122_set_values, C122_to, C122_to_batch, C122_violated_end, C122_violated_scalar, C123_allclose_number_partial, C123_allclose_partial, C123_allclose_shapes, C123_between_numbers, C123_between_partial, C123_eachclose_partial, C123_violated_allclose, C123_violated_allclose_bool, C123_violated_between, C123_violated_eachclose, C124_from_numpy, C124_repeat_partial, C124_round_trip, C124_selection_copies_partial, C125_clear, C125_del_slice, C125_elements, C125_pop, C125_positions, C125_remove, C125_reverse, C126_adam, C126_cem, C126_cem_accepts, C126_clipup, C126_defaults, C126_draws_partial, C126_names, C126_no_config, C126_pgpe, C126_pgpe_accepts, C126_refusals, C126_sgd, C126_snes, C126_snes_accepts, C126_violated_config_stepsize, C126_violated_not_numeric, C126_violated_odd, C126_xnes, C126_xnes_accepts, C128_children, C128_cosyne, C128_count_unique, C128_cross_over, C128_cross_over_kinds, C128_cross_over_refused, C128_polynomial, C128_single, C128_violated_accepted, C128_violated_default_points, C128_violated_small_rate, C129_entries, C129_lengths, C129_reported, C129_total, C12_comparison_strict_order, C12_trichotomy, C130_batched_rows, C130_brax, C130_constants, C130_options, C130_registry, C130_repeated, C130_rewrap, C130_round_trip, C130_vecgymne, C130_vecgymne_refused, C130_violated_scalar, C130_violated_start, C130_wrapped, C131_sequences, C132_contents, C132_directory, C132_failed, C132_gone, C132_history, C132_names, C132_no_key, C132_no_policy, C132_order, C132_policy, C132_stats, C132_unshared, C132_violated_order, C132_violated_overwrite, C132_violated_stats, C132_width, C133_frame, C133_index, C133_stdout, C133_stdout_empty, C135_override, C135_override_partial, C135_violated_override, C136_clip, C136_clip_bounds_partial, C136_clipped, C136_empty_like_objects_partial, C136_ensure, C136_ensure_identity, C136_make_objects, C136_make_tensor, C136_method, C136_numpy_copy_partial, C136_violated_clip_integer, C136_violated_make_objects_device, C136_violated_numpy_copy, C136_violated_numpy_copy_grad, C137_callable, C137_constants, C137_gym_partial, C137_module_and_plain, C137_string_partial, C137_supervised, C137_vec_partial, C137_violated_num_actors, C137_violated_num_subbatches, C137_violated_string_args, C138_episode, C138_evaluate, C138_run, C138_terminates, C138_violated_update_stats, C138_visualize, C139_mask, C139_slice, C139_split_and_cat, C142_fits_partial, C142_violated_bins, C143_local, C145_passes, C146_log_barrier_partial, C146_penalty_partial, C146_violated_integers, C146_violated_mixed, C146_violated_numbers, C146_violation_partial, C147_each_once, C147_made, C147_violated_copy, C147_violated_envs, C149_independent, C149_pickling_loggers_partial, C14_set_evals_exact, C150_elitist_partial, C150_nes_partial, C150_ranks_partial, C150_take_best_partial, C150_violated_elites, C150_violated_elitist, C150_violated_maximised, C150_violated_nes, C150_violated_ranks, C151_nothing_lost_partial, C151_size, C151_step, C151_violated_extremes, C152_chances, C152_independent, C152_pressure, C152_several_objectives, C152_total, C153_converges, C153_mutation_probability, C153_needs_elitism, C153_rate, C154_adam_bounded, C154_adam_constant, C154_clipup_directions, C154_clipup_distance, C154_clipup_one_direction, C154_sgd_constant, C155_reads_iff_partial, C155_violated_error, C155_violated_list_snapshot, C156_accepted_partial, C156_refused, C156_violated_given_center, C156_violated_one_variable, C156_violated_popsize_one, C157_alive_partial, C157_first_at_address, C157_violated_dictionary, C157_violated_items, C158_violated_clock, C158_violated_export, C159_bag_same, C159_dict_same, C159_list_lenient, C159_list_same_partial, C159_memory_same, C159_memory_wraps, C15_argsort_and_take_best, C160_results_stay, C160_violated_cosyne, C160_violated_stuck, C161_compare, C161_pieces_partial, C161_ranking, C161_running_exact, C161_share_partial, C161_stdev_limits, C161_stdev_positive, C161_take_best, C161_uniform, C161_violated_share, C161_violated_stdev, C161_violated_variance, C161_violation, C162_bag_orders, C162_cosyne_mask, C162_cosyne_orders, C162_gaussian_mutation, C162_multi_point, C162_one_point, C162_polynomial_mutation, C162_randint, C162_randint_independent, C162_uniform_bit, C162_uniform_int, C162_violated_randint, C162_violated_zero_probability, C163_listed_solutions_stay, C163_reports_stay_partial, C164_covers, C164_edges_partial, C164_ends, C164_exactly_one_cell_partial, C164_few_bins, C164_violated_double, C164_violated_order, C165_violated_integer_sgd, C166_constructor, C166_get, C166_subtract_partial, C166_update_bool, C166_update_partial, C168_cosyne, C168_genetic_algorithm, C168_map_elites, C168_no_new_genes, C169_budget, C169_budget_cosyne, C169_budget_map_elites, C169_operators_see_evaluations, C169_settings, C169_violated_stale, C16_pareto_fronts, C16_pareto_ranks, C16_ranking_terminates, C170_all_cells, C170_converges, C170_rate, C171_converges, C171_converges_cosyne, C171_rate, C171_rate_cosyne, C172_full, C172_full_run, C172_full_step, C172_separable_partial, C172_violated_active, C172_violated_stalled, C173_cem, C173_cem_run, C173_cem_stdev_shrinks, C173_flat, C173_pgpe, C173_pgpe_run, C173_snes, C173_snes_run, C173_xnes, C173_xnes_run, C174_cem, C174_cem_average, C174_cma, C174_cma_full_average, C174_cma_separable_average, C174_pgpe, C174_pgpe_run, C174_snes, C174_snes_linear_can_worsen, C174_snes_run, C174_xnes, C174_xnes_run, C175_pgpe_best_rate, C175_pgpe_converges, C175_pgpe_diverges, C175_pgpe_mean, C175_pgpe_run_mean, C175_pgpe_run_square, C175_pgpe_spread, C175_pgpe_square, C176_adam_violated, C176_clipup_better, C176_clipup_flat_violated, C176_clipup_run, C176_sgd_run, C177_clipup_better, C177_clipup_run, C177_raw_run, C177_raw_same, C177_run, C177_sgd_run, C178_average_converges, C178_average_converges_nesterov, C178_average_plain, C178_average_run, C178_limit_sharp, C179_cem_dist, C179_cem_numbers, C179_cem_violated, C179_snes_clipup_run, C179_snes_dist_better, C179_snes_dist_clipup_run, C179_snes_dist_run, C179_snes_sgd_run, C17_take_best_respects_fronts, C180_pgpe, C180_pgpe_distributed, C180_snes, C180_snes_distributed, C181_pgpe, C181_pgpe_clipup, C181_pgpe_distributed, C181_pgpe_distributed_clipup, C181_snes, C181_snes_clipup, C181_snes_distributed, C181_snes_distributed_clipup, C182_others, C182_spoilt, C183_polynomial_anywhere, C183_polynomial_eta, C183_polynomial_law, C183_sbx_eta, C183_sbx_law, C184_converges, C184_converges_elitist, C184_mutation_probability, C184_rate, C184_rate_elitist, C185_all_cells, C185_converges, C185_rate, C186_all_objectives, C186_converges, C186_rate, C187_calls, C18_pareto_sort_fronts_by_crowding_partial, C18_violated, C19_centered, C19_linear, C20_nes, C21_normalized, C21_raw, C23_violated, C24_use_protocol, C26_gaussian_mutation, C26_polynomial_mutation_partial, C26_sbx, C26_violated_polynomial, C27_multi_point, C28_children_count, C28_num_tournaments, C29_multi_objective, C29_single_objective, C29_winner_not_dominated, C30_sbx_mean, C31_cosyne_column, C33_best_of_candidates, C33_elites_kept, C34_bins, C34_exactly_one_cell, C34_grid_covers, C34_grid_size, C35_clone_independent, C35_no_interference, C35_no_other_effect, C35_views_share, C35_write, C35_write_from, C35_write_many, C36_as_immutable, C36_roundtrip_partial, C37_deep_clone, C37_independent, C38_calls, C39_never_stale, C40_run, C40_run_exception, C41_ipop, C42_steps, C44_lower_bound_yields, C44_modify_tensor, C45_stdev_stays_positive, C45_stdev_within_limits, C45_uncontrolled_can_be_negative, C46_modify_vector_partial, C46_tell_history_partial, C46_violated_zero_stdev, C47_cmaes_separable_sigma_positive, C47_cmaes_sigma_positive, C47_snes_stays_positive, C47_snes_with_limits, C48_inverse_exact, C48_optimizer_unusable, C49_functional_sample_symmetric, C50_symmetric_gradient, C51_cem_update, C51_single_elite_has_no_deviation, C52_class, C52_functional, C52_zero_gradient, C53_adam, C53_clipup, C53_clipup_defaults, C53_sgd, C54_param_group_partial, C54_violated, C55_pooled, C55_weighted_average, C56_adaptive_step, C57_normalize, C57_order_and_grouping_irrelevant, C57_running_stat, C57_running_stats_are_batch_stats, C58_all_false_mask_partial, C58_masked_update_partial, C58_violated_all_false_mask, C58_violated_masked_nan, C59_actors_start_with_all_partial, C59_sync_partial, C60_batched, C60_mismatch, C60_numbers, C60_rowwise, C60_scalar_refused, C61_flat_partial, C61_pipeline_partial, C61_violated_repeated_keyword, C62_fill_round_trip, C62_functional, C63_multilayered, C63_multilayered_step, C64_first_episodes, C64_gym_rollout, C64_no_early_end, C65_any_schedule, C65_bonus, C65_gym_and_vec_agree, C65_wrapper_history, C66_actors_partial, C66_common_partial, C66_cyclic, C66_pass_position, C66_separate, C66_violated_actors, C67_equal_infinities_counterexample, C67_exponent_zero_counterexample, C67_infinite_violation_counterexample, C67_log_barrier, C67_log_barrier_infinite, C67_penalty, C67_unknown_operator, C67_violation, C68_actor_seeds_distinct, C69_float, C69_in_range_partial, C69_reachable_partial, C70_obj_index_partial, C70_refused_partial, C71_center_is_convex_combination_partial, C71_default_rates, C71_violated_separable_recombines_the_worst, C72_separable_stdevs_within_limits_partial, C72_stdevs_within_limits_partial, C72_violated_limits_break_covariance, C73_clone, C73_derived, C73_in_place_refused, C73_result_class, C73_sealed_partial, C73_violated_cast, C73_violated_out_tuple, C73_violated_through_numpy, C74_shares, C74_sizes_add_up, C75_even_sizes_partial, C75_violated, C76_crowding_distance_nsga2, C77_cov_partial, C77_violated, C78_relative_entropy, C79_initial_stdev, C80_vector_gradients_partial, C80_violated_matrix_gradient, C81_mean_eval_partial, C81_violated_empty_share, C82_covariance_stays_positive_definite_partial, C82_separable_variances_stay_positive_partial, C82_violated_separable_negative_variance, C85_like_alone, C87_symmetric, C88_apply, C88_bin, C88_clip, C88_round, C88_slice, C88_slice_all, C89_lstm, C89_lstm_bounded, C89_rnn, C90_feed_forward, C90_structured_control, C92_accepted_iff_partial, C92_completed, C92_senses_refused, C92_sequence_validated, C92_violated_eval_dtype, C92_violated_single_sense, C93_conflicts, C93_counts, C93_num_devices, C93_num_gpus, C93_settled, C93_share_all, C93_violated_num_devices_on_gpu, C93_violated_share_among_none, C94_integers_partial, C94_violated_outside_bounds, C94_violated_reversed_bounds, C94_within_initial_bounds_partial, C95_independent, C96_index_partial, C96_iteration, C96_violated_one_past_the_end, C97_all_objectives, C97_higher_is_better, C98_refusals
* **Quot.sound, propext** (252 theorems): C01_full_bad_shape, C103_violated_generator, C105_caller_partial, C105_untouched_aux, C106_aux_device, C106_refused_partial, C107_clipped_other, C107_gym_partial, C107_memory_parameters, C107_memory_partial, C107_save_partial, C107_vec_partial, C107_violated_memory, C107_violated_save, C108_errors, C108_result, C109_construct_partial, C109_exp_modified_copy_labels, C109_violated_explicit_dtype, C110_no_sense, C110_refused, C111_as_tensor, C111_empty_partial, C111_filled, C111_identity, C111_out_partial, C111_randint_partial, C111_random_partial, C111_refused, C111_shaped_like, C111_violated_dtype_name, C111_violated_exception_returned, C111_violated_objects, C111_violated_randint_eval, C112_dictionary, C112_frozen, C112_set, C112_violated_pickled_set, C112_violated_set_membership, C112_violated_tuple_key, C117_max_is_min_of_negation, C117_missing_fitness, C118_reuse, C118_simulator_device_partial, C118_violated_named_actors, C119_answers, C119_legal_partial, C119_noise_partial, C119_refused_not_forwarded, C119_same_action, C119_vector_answers, C11_best_present, C11_best_worst_exact_without_nan, C11_best_worst_partial, C11_first_batch_raises_iff, C11_first_batch_with_nan_raises, C11_never_worsens, C11_violated_by_nan, C11_violated_witness, C120_in_actor, C120_remote_attribute, C120_remote_method, C122_bad_index, C122_refused_evals, C122_refused_values, C122_violated_stale, C123_shape, C124_new, C124_numpy, C124_slice_shares, C125_append, C125_call_growing, C125_call_unchanged, C125_insert, C125_set_slice, C125_slice, C125_slice_zero, C127_empty_run, C127_mapping, C127_read_only, C127_steps, C127_to_dict, C128_gaussian, C128_violated_gaussian, C129_violated_device, C130_option_values, C130_single, C130_wrapper_refuses, C131_expect_none, C131_vectors, C133_feed, C133_filter, C133_mlflow, C133_mlflow_init, C133_neptune, C133_pandas, C133_sacred, C133_sacred_result, C133_wandb, C134_reseed, C134_schedule, C134_seeded, C134_source, C134_unseeded, C134_unseeded_schedule, C135_configured, C135_once, C136_empty_like_tensor, C137_environment, C137_schedule_partial, C139_arguments, C139_bounds, C139_indices, C139_merge_partial, C139_refused, C139_violated_merge, C139_violated_tuple, C139_well_formed, C13_evaluate_exact, C13_evaluations_never_stale_partial, C13_refused_set_values, C13_violated_by_failed_set_values, C13_violated_by_keep_evals, C13_violated_by_kept_tensor, C140_complete, C140_cut, C140_terminates, C141_position_partial, C142_accepted_partial, C143_hooks, C143_refused, C143_remote_partial, C143_violated_none, C143_violated_stats, C144_saved_partial, C144_succeeds_partial, C144_unharmed_partial, C144_violated_architecture, C144_violated_sequence, C147_stale, C147_stale_after_kill, C148_violated_nested, C148_violated_writeable, C149_pickled, C149_status_loggers, C149_violated_copy, C149_violated_dropped, C155_set_partial, C155_violated_shape, C155_violated_wrong_item, C158_exported_training, C158_given_partial, C158_gym_partial, C158_mode_irrelevant, C158_supervised, C158_violated_given, C158_violated_mode, C15_argbest_argworst, C160_cmaes, C160_cosyne_partial, C160_evaluated_otherwise, C160_gaussian_first_partial, C160_map_elites_partial, C160_not_re_evaluating_partial, C160_re_evaluating, C165_cem_accepts, C165_cem_generations, C165_cem_history, C165_cem_initial, C165_pgpe_accepts, C165_pgpe_evaluations_device, C165_pgpe_generations, C165_pgpe_history, C165_pgpe_initial, C165_told_populations_widen, C165_violated_radius_half, C167_actors_partial, C167_gradients_partial, C167_local, C167_violated_actors, C169_cosyne_fresh, C169_fresh_partial, C169_once, C169_operators_see_fresh, C169_violated_order, C187_network, C187_violated_buffers, C22_best_never_worsens, C22_keeps_the_best_candidates, C22_population_size, C23_keeps_best_parents_partial, C25_best_never_worsens, C25_population_size, C27_one_point, C32_cut_and_splice, C35_read_only, C35_read_only_view_shares, C38_dicts, C38_lists, C38_mixing, C39_at_most_once, C40_status_after_step, C41_ipop_detect, C41_num_restarts, C42_interval, C43_last_is_saved, C43_saved_once, C43_zero_interval, C44_shape_mismatch, C46_single_bound_refused, C49_make_gaussian_symmetric, C50_parts, C57_refusals, C59_violated_kill, C59_violated_kill_after_pickle, C59_violated_run, C60_too_few_dimensions, C61_unsupported_partial, C62_fill_own, C62_wrong_length, C63_history, C64_no_episodes, C65_arguments, C69_bool, C69_no_bounds, C69_one_bound, C69_randint, C69_violated_full_range, C69_violated_out_of_range, C69_violated_unreachable, C70_violated, C84_batches_isolated_partial, C84_violated, C85_independent, C85_wrong_size, C86_accepted_partial, C86_equal_accepted_partial, C86_refused, C86_violated_action_shape, C86_violated_observations, C87_cases, C90_refused, C91_locomotor, C92_vectorized_refused, C94_arguments, C94_gaussian, C94_needs_bounds, C94_unevaluated, C95_copies, C95_views_share, C97_checks_and_ranking, C98_evaluates_every_solution
* **propext** (121 theorems): C01_violated_by_bad_shape, C01_violated_for_max_length_one, C05_bool_circular, C07_one_batch_dimension, C07_violated_batch_shape, C07_violated_high_value_range, C07_violated_int16_overflow, C09_split_refusals, C103_violated_copy, C103_violated_kill, C103_violated_supervised, C106_decorators, C106_violated_evaluate_all, C109_errors, C109_exp_caller_partial, C109_violated_rates, C110_mismatch, C110_modes, C110_sampler_init, C111_as_objects, C111_shapes_refused, C111_violated_as_tensor, C111_violated_empty_out, C111_violated_out_contradicted, C111_violated_out_scalar, C112_mutable_partial, C112_pickled_partial, C118_unfaithful, C120_violated_change, C120_violated_replaced, C123_dtype, C124_refused, C124_violated_duplicates, C124_violated_read_only, C124_violated_repeat, C124_violated_repeat_tuple, C125_violated_self_removal, C127_missing, C127_print, C130_refused, C131_dtypes, C131_names, C131_numpy_dtypes, C131_object, C131_scalars, C131_strings, C131_tensor_vectors, C131_violated_bfloat16, C131_violated_bytes, C131_violated_empty, C132_prefix, C133_zero, C134_env_seeds, C134_global, C134_refused, C134_violated_vecgymne, C135_already, C135_format, C135_inherited, C136_empty_like_refused, C136_violated_empty_like, C137_violated_schedule, C139_violated_columns, C141_erroneous_result, C141_violated_bytes, C142_mismatch_refused, C142_refused, C142_violated_mismatch, C143_violated_dtype, C145_loader, C145_loss, C145_refused, C145_violated_unpaired, C147_env_making, C147_problem_method, C147_refused, C148_copies_partial, C148_immutable_partial, C148_independent_partial, C148_mutable, C148_pickled, C148_refused, C148_violated_copy, C148_violated_copy_writeable, C148_violated_view, C155_keys_partial, C155_violated_is_batched, C155_violated_masked_key, C159_violated_default, C160_violated_adaptive, C160_violated_gaussian, C163_violated_lists, C165_radius_exactly, C165_violated_integer_center, C165_violated_radius_cuda, C166_violated_sequences, C167_violated_aux_device, C167_violated_second_request, C24_failed_use_changes_nothing, C33_archive_not_reevaluated, C33_archive_reevaluated, C35_violated_overlapping_assignment, C36_mutable_copy_refused, C36_violated_set_of_tuples, C36_violated_tuple, C37_tuple_cycle_not_preserved, C38_accumulate, C39_nothing_from_before, C41_step, C42_zero_interval, C56_actors_agree, C56_no_counter, C60_extra_arguments_dropped, C61_violated_dotted_name, C62_refused_fill_modifies, C63_reset, C66_empty_loader, C83_init_with_rates_partial, C83_violated_python_rates, C86_violated_gymne, C99_like_empty_partial

## 7. Coverage of the source

A function is listed as modelled if a definition of the model cites lines of it; the citation says which lines and what is simplified. Everything else is not modelled. Derived from the citations in `lean/Verif/Model`.
Total: 780 of 1012 functions and methods (nested functions are counted with the enclosing one).


### `algorithms/cmaes.py` (13 of 17)

* modelled: `_h_sig`, `_limit_stdev`, `_safe_divide`, `CMAES.__init__`, `CMAES._get_center`, `CMAES.sample_distribution`, `CMAES.get_population_weights`, `CMAES.update_m`, `CMAES.update_p_sigma`, `CMAES.update_sigma`, `CMAES.update_p_c`, `CMAES.update_C`, `CMAES._step`
* not modelled: `CMAES.population`, `CMAES._get_sigma`, `CMAES.obj_index`, `CMAES.decompose_C`

### `algorithms/distributed/gaussian.py` (12 of 17)

* modelled: `GaussianSearchAlgorithm.__init__`, `GaussianSearchAlgorithm._initialize_optimizer`, `GaussianSearchAlgorithm._step`, `GaussianSearchAlgorithm._step_distributed`, `GaussianSearchAlgorithm._step_non_distributed`, `GaussianSearchAlgorithm._update_distribution`, `GaussianSearchAlgorithm._get_mu`, `GaussianSearchAlgorithm._get_sigma`, `PGPE.__init__`, `SNES.__init__`, `CEM.__init__`, `XNES.__init__`
* not modelled: `GaussianSearchAlgorithm._get_mean_eval`, `GaussianSearchAlgorithm._get_popsize`, `GaussianSearchAlgorithm.optimizer`, `GaussianSearchAlgorithm.population`, `GaussianSearchAlgorithm.obj_index`

### `algorithms/functional/funcadam.py` (4 of 4)

* modelled: `adam`, `_adam_step`, `adam_ask`, `adam_tell`

### `algorithms/functional/funccem.py` (5 of 5)

* modelled: `cem`, `_cem_ask`, `_cem_tell`, `cem_ask`, `cem_tell`

### `algorithms/functional/funcclipup.py` (4 of 4)

* modelled: `clipup`, `_clipup_step`, `clipup_ask`, `clipup_tell`

### `algorithms/functional/funcpgpe.py` (4 of 5)

* modelled: `pgpe`, `pgpe_ask`, `_follow_stdev_grad`, `pgpe_tell`
* not modelled: `_make_sample_and_grad_funcs`

### `algorithms/functional/funcsgd.py` (4 of 4)

* modelled: `sgd`, `_sgd_step`, `sgd_ask`, `sgd_tell`

### `algorithms/functional/misc.py` (2 of 2)

* modelled: `get_functional_optimizer`, `_get_stdev_init`

### `algorithms/ga.py` (13 of 15)

* modelled: `_use_operator`, `_use_operators`, `ExtendedPopulationMixin.__init__`, `ExtendedPopulationMixin._make_extended_population`, `ExtendedPopulationMixin.re_evaluate`, `ExtendedPopulationMixin.re_evaluate_parents_first`, `GeneticAlgorithm.__init__`, `GeneticAlgorithm._step`, `SteadyStateGA.__init__`, `SteadyStateGA.use`, `SteadyStateGA._step`, `Cosyne.__init__`, `Cosyne._step`
* not modelled: `GeneticAlgorithm.population`, `Cosyne.population`

### `algorithms/mapelites.py` (6 of 8)

* modelled: `_all_across_rightmost_dim`, `_best_solution_considering_feature`, `_best_solution_considering_all_features`, `MAPElites.__init__`, `MAPElites._step`, `MAPElites.make_feature_grid`
* not modelled: `MAPElites.population`, `MAPElites.filled`

### `algorithms/pycmaes.py` (2 of 5)

* modelled: `PyCMAES.__init__`, `PyCMAES._step`
* not modelled: `PyCMAES.population`, `PyCMAES._get_center`, `PyCMAES.obj_index`

### `algorithms/restarter/modify_restart.py` (3 of 5)

* modelled: `ModifyingRestart._restart`, `IPOP._search_algorithm_terminated`, `IPOP._modify_algorithm_args`
* not modelled: `ModifyingRestart._modify_algorithm_args`, `IPOP.__init__`

### `algorithms/restarter/restart.py` (4 of 6)

* modelled: `Restart.__init__`, `Restart._restart`, `Restart._search_algorithm_terminated`, `Restart._step`
* not modelled: `Restart._get_sa_status`, `Restart._get_num_restarts`

### `algorithms/searchalgorithm.py` (38 of 43)

* modelled: `LazyReporter._missing_status_producer`, `LazyReporter.__init__`, `LazyReporter.get_status_value`, `LazyReporter.has_status_key`, `LazyReporter.iter_status_keys`, `LazyReporter.clear_status`, `LazyReporter.is_status_computed`, `LazyReporter.update_status`, `LazyReporter.add_status_getters`, `LazyReporter.status`, `LazyStatusDict.__init__`, `LazyStatusDict.__getitem__`, `LazyStatusDict.__len__`, `LazyStatusDict.__iter__`, `LazyStatusDict.__contains__`, `LazyStatusDict._to_string`, `LazyStatusDict.__str__`, `LazyStatusDict.__repr__`, `SearchAlgorithm.__init__`, `SearchAlgorithm.step_count`, `SearchAlgorithm.steps_count`, `SearchAlgorithm.step`, `SearchAlgorithm._step`, `SearchAlgorithm.run`, `SearchAlgorithm.first_step_datetime`, `SearchAlgorithm.reset_first_step_datetime`, `SearchAlgorithm.is_terminated`, `SinglePopulationAlgorithmMixin.ObjectiveStatusReporter.__init__`, `SinglePopulationAlgorithmMixin.ObjectiveStatusReporter.population`, `SinglePopulationAlgorithmMixin.ObjectiveStatusReporter.obj_index`, `SinglePopulationAlgorithmMixin.ObjectiveStatusReporter.get_status_value`, `SinglePopulationAlgorithmMixin.ObjectiveStatusReporter.has_status_key`, `SinglePopulationAlgorithmMixin.ObjectiveStatusReporter._get_pop_best`, `SinglePopulationAlgorithmMixin.ObjectiveStatusReporter._get_pop_best_eval`, `SinglePopulationAlgorithmMixin.ObjectiveStatusReporter._get_mean_eval`, `SinglePopulationAlgorithmMixin.ObjectiveStatusReporter._get_median_eval`, `SinglePopulationAlgorithmMixin.ObjectiveStatusReporter.__call__`, `SinglePopulationAlgorithmMixin.__init__`
* not modelled: `SearchAlgorithm.problem`, `SearchAlgorithm.before_step_hook`, `SearchAlgorithm.after_step_hook`, `SearchAlgorithm.log_hook`, `SearchAlgorithm.end_of_run_hook`

### `core.py` (117 of 177)

* modelled: `EvaluationActor.__init__`, `EvaluationActor.evaluate_batch`, `EvaluationActor.call`, `EvaluationActor.get`, `EvaluationActor.set`, `EvaluationActor.call_on_env`, `AllRemoteProblems.__init__`, `AllRemoteProblems.__getattr__`, `AllRemoteEnvs.__init__`, `AllRemoteEnvs.__getattr__`, `RemoteMethod.__init__`, `RemoteMethod.__call__`, `Problem.__init__`, `Problem.manual_seed`, `Problem.aux_device`, `Problem.generator`, `Problem.has_own_generator`, `Problem.is_single_objective`, `Problem.is_multi_objective`, `Problem.get_obj_order_descending`, `Problem.lower_bounds`, `Problem.upper_bounds`, `Problem.generate_values`, `Problem._fill`, `Problem.generate_batch`, `Problem._parallelize`, `Problem.all_remote_problems`, `Problem.all_remote_envs`, `Problem.kill_actors`, `Problem.num_actors`, `Problem._sync_before`, `Problem._sync_after`, `Problem._get_best_and_worst`, `Problem.compare_solutions`, `Problem.is_better`, `Problem.is_worse`, `Problem._start_preparations`, `Problem._share_attributes`, `Problem.put_ray_object`, `Problem._device_of_fitness_function`, `Problem.evaluate`, `Problem._evaluate_all`, `Problem._evaluate_batch`, `Problem._evaluate`, `Problem.ensure_numeric`, `Problem.ensure_unbounded`, `Problem.ensure_single_objective`, `Problem.normalize_obj_index`, `Problem._get_cloned_state`, `Problem._get_local_interaction_count`, `Problem.sample_and_compute_gradients`, `Problem._gradient_computation_helper`, `Problem._grad_device`, `Problem._sample_and_compute_gradients`, `_crowding_distance_assignment`, `_compute_pareto_ranks`, `_pareto_sort`, `SolutionBatch.__init__`, `SolutionBatch._normalize_row_index`, `SolutionBatch._normalize_obj_index`, `SolutionBatch._optionally_get_obj_index`, `SolutionBatch.argsort`, `SolutionBatch.compute_pareto_ranks`, `SolutionBatch.arg_pareto_sort`, `SolutionBatch.argbest`, `SolutionBatch.argworst`, `SolutionBatch._get_objective_sign`, `SolutionBatch.set_values`, `SolutionBatch.set_evals`, `SolutionBatch.access_evals`, `SolutionBatch.access_values`, `SolutionBatch.forget_evals`, `SolutionBatch.utility`, `SolutionBatch.utils`, `SolutionBatch.split`, `SolutionBatch.concat`, `SolutionBatch.take`, `SolutionBatch.take_best`, `SolutionBatch.__getitem__`, `SolutionBatch.__iter__`, `SolutionBatch._get_cloned_state`, `SolutionBatch.to`, `SolutionBatch.cat`, `SolutionBatchPieces.__init__`, `Solution.__init__`, `Solution.access_values`, `Solution.access_evals`, `Solution.values`, `Solution.evals`, `Solution.evaluation`, `Solution.set_values`, `Solution.set_evals`, `Solution.set_evaluation`, `Solution.objective_sense`, `Solution.senses`, `Solution.is_evaluated`, `Solution.dtype`, `Solution.device`, `Solution.eval_dtype`, `Solution._rightmost_shape`, `Solution.shape`, `Solution.size`, `Solution.eval_shape`, `Solution.ndim`, `Solution.dim`, `Solution.__len__`, `Solution.__iter__`, `Solution.__reversed__`, `Solution.__getitem__`, `Solution._to_string`, `Solution.__repr__`, `Solution.__str__`, `Solution._get_cloned_state`, `Solution.to`, `Solution.to_batch`, `ProblemBoundEvaluator.__init__`, `ProblemBoundEvaluator.__call__`
* not modelled: `EvaluationActor.evaluate_batch_piece`, `RemoteMethod.__repr__`, `_no_grad_if_basic_dtype`, `Problem.dtype`, `Problem.device`, `Problem.eval_dtype`, `Problem.objective_sense`, `Problem.senses`, `Problem.solution_length`, `Problem.eval_data_length`, `Problem.initial_lower_bounds`, `Problem.initial_upper_bounds`, `Problem.actors`, `Problem.actor_index`, `Problem.is_remote`, `Problem.is_main`, `Problem.before_eval_hook`, `Problem.after_eval_hook`, `Problem.before_grad_hook`, `Problem.after_grad_hook`, `Problem.remote_hook`, `Problem._make_sync_data_for_actors`, `Problem._use_sync_data_from_main`, `Problem._make_sync_data_for_main`, `Problem._use_sync_data_from_actors`, `Problem._make_pickle_data_for_main`, `Problem._use_pickle_data_from_main`, `Problem._prepare`, `Problem._prepare_main`, `Problem._nonserialized_attribs`, `Problem._shared_attribs`, `Problem.stores_solution_stats`, `Problem.status`, `Problem._get_local_episode_count`, `Problem.is_on_cpu`, `Problem.make_callable_evaluator`, `_opt_bool`, `SolutionBatch.evals`, `SolutionBatch.values`, `SolutionBatch.__len__`, `SolutionBatch.device`, `SolutionBatch.dtype`, `SolutionBatch.values_dtype`, `SolutionBatch.eval_dtype`, `SolutionBatch.values_shape`, `SolutionBatch.eval_shape`, `SolutionBatch.solution_length`, `SolutionBatch.objective_sense`, `SolutionBatch.senses`, `SolutionBatchPieces.__len__`, `SolutionBatchPieces.__getitem__`, `SolutionBatchPieces.iter_with_indices`, `SolutionBatchPieces.indices_of`, `SolutionBatchPieces.batch`, `SolutionBatchPieces._to_string`, `SolutionBatchPieces.__str__`, `SolutionBatchPieces.__repr__`, `_all_none`, `ProblemBoundEvaluator._make_empty_solution_batch`, `ProblemBoundEvaluator._prepare_evaluated_solution_batch`

### `decorators.py` (7 of 8)

* modelled: `_simple_decorator`, `pass_info`, `on_device`, `on_cuda`, `on_aux_device`, `expects_ndim`, `rowwise`
* not modelled: `vectorized`

### `distributions.py` (46 of 59)

* modelled: `Distribution.__init__`, `Distribution.__check_correctness`, `Distribution.to`, `Distribution.sample`, `Distribution.compute_gradients`, `Distribution.modified_copy`, `Distribution._follow_gradient`, `Distribution._get_learning_rate_and_optimizer`, `SeparableGaussian._unbatched_functional_sample`, `SeparableGaussian.__init__`, `SeparableGaussian.mu`, `SeparableGaussian.sigma`, `SeparableGaussian.sigma`, `SeparableGaussian._fill`, `SeparableGaussian._divide_grad`, `SeparableGaussian._compute_gradients_via_parenthood_ratio`, `SeparableGaussian._compute_gradients`, `SeparableGaussian.update_parameters`, `SeparableGaussian.relative_entropy`, `SymmetricSeparableGaussian._unbatched_functional_sample`, `SymmetricSeparableGaussian._fill`, `SymmetricSeparableGaussian._compute_gradients`, `ExpSeparableGaussian._compute_gradients`, `ExpSeparableGaussian.update_parameters`, `ExpGaussian.__init__`, `ExpGaussian.mu`, `ExpGaussian.mu`, `ExpGaussian.cov`, `ExpGaussian.sigma`, `ExpGaussian.sigma_inv`, `ExpGaussian.A`, `ExpGaussian.A_inv`, `ExpGaussian.sigma`, `ExpGaussian.to_global_coordinates`, `ExpGaussian.to_local_coordinates`, `ExpGaussian._fill`, `ExpGaussian._compute_gradients`, `ExpGaussian.update_parameters`, `_get_param_ndim`, `FunctionalSampler.__init__`, `FunctionalSampler.__sample`, `FunctionalSampler.__call__`, `make_functional_sampler`, `FunctionalGradEstimator.__init__`, `FunctionalGradEstimator.__grad`, `FunctionalGradEstimator.__call__`
* not modelled: `Distribution._fill`, `Distribution._compute_gradients`, `Distribution.update_parameters`, `Distribution.relative_entropy`, `Distribution.solution_length`, `Distribution.device`, `Distribution.dtype`, `Distribution.parameters`, `Distribution._get_cloned_state`, `SeparableGaussian.functional_sample`, `SeparableGaussian.mu`, `SymmetricSeparableGaussian.functional_sample`, `make_functional_grad_estimator`

### `logging.py` (16 of 16)

* modelled: `Logger.__init__`, `Logger.__call__`, `Logger._filter`, `Logger._log`, `PicklingLogger.__init__`, `PicklingLogger._within_dir`, `PicklingLogger._as_cpu_tensor`, `PicklingLogger._log`, `PicklingLogger._final_save`, `PicklingLogger.save`, `PicklingLogger.last_generation`, `PicklingLogger.last_file_name`, `PicklingLogger.unpickle_last_file`, `ScalarLogger._filter`, `StdOutLogger.__init__`, `StdOutLogger._log`

### `neuroevolution/gymne.py` (33 of 38)

* modelled: `ensure_space_types`, `GymNE.__init__`, `GymNE._network_constants`, `GymNE._str_network_constants`, `GymNE._instantiate_new_env`, `GymNE._get_env`, `GymNE._normalize_observation`, `GymNE._use_policy`, `GymNE.network_device`, `GymNE._rollout`, `GymNE._nonserialized_attribs`, `GymNE.run`, `GymNE.visualize`, `GymNE._make_sync_data_for_actors`, `GymNE.set_observation_stats`, `GymNE._use_sync_data_from_main`, `GymNE.pop_observation_stats`, `GymNE._make_sync_data_for_main`, `GymNE.update_observation_stats`, `GymNE._use_sync_data_from_actors`, `GymNE._make_pickle_data_for_main`, `GymNE._use_pickle_data_from_main`, `GymNE._extra_status`, `GymNE.set_episode_count`, `GymNE.set_interaction_count`, `GymNE.interaction_count`, `GymNE.episode_count`, `GymNE._get_local_episode_count`, `GymNE._get_local_interaction_count`, `GymNE._evaluate_network`, `GymNE.to_policy`, `GymNE.save_solution`, `GymNE.get_env`
* not modelled: `_make_env`, `GymNE._prepare`, `GymNE._ensure_obsnorm`, `GymNE.get_observation_stats`, `GymNE.observation_normalization`

### `neuroevolution/neproblem.py` (12 of 13)

* modelled: `NEProblem.__init__`, `NEProblem.network_device`, `NEProblem._str_network_constants`, `NEProblem._network_constants`, `NEProblem.network_constants`, `NEProblem._nonserialized_attribs`, `NEProblem._instantiate_net`, `NEProblem._prepare`, `NEProblem.make_net`, `NEProblem.parameterize_net`, `NEProblem._grad_device`, `NEProblem._evaluate`
* not modelled: `NEProblem._evaluate_network`

### `neuroevolution/net/functional.py` (5 of 7)

* modelled: `_shape_length`, `ModuleExpectingFlatParameters.__init__`, `ModuleExpectingFlatParameters.__transfer_buffers`, `ModuleExpectingFlatParameters.buffers`, `ModuleExpectingFlatParameters.__call__`
* not modelled: `ModuleExpectingFlatParameters.parameter_length`, `make_functional_module`

### `neuroevolution/net/layers.py` (19 of 39)

* modelled: `Clip.forward`, `Bin.__init__`, `Bin.forward`, `Slice.forward`, `Round.__init__`, `Round.forward`, `Apply.__init__`, `Apply.forward`, `RNN.__init__`, `RNN.forward`, `LSTM.__init__`, `LSTM.forward`, `FeedForwardNet.__init__`, `FeedForwardNet.forward`, `StructuredControlNet.__init__`, `StructuredControlNet.forward`, `LocomotorNet.__init__`, `LocomotorNet.reset`, `LocomotorNet.forward`
* not modelled: `Clip.__init__`, `Clip.extra_repr`, `Bin.extra_repr`, `Slice.__init__`, `Slice.extra_repr`, `Round.extra_repr`, `Apply.extra_repr`, `RNN.__repr__`, `LSTM.__repr__`, `StructuredControlNet.in_features`, `StructuredControlNet.out_features`, `StructuredControlNet.num_layers`, `StructuredControlNet.hidden_size`, `StructuredControlNet.bias`, `StructuredControlNet.nonlinearity`, `LocomotorNet.t`, `LocomotorNet.in_features`, `LocomotorNet.out_features`, `LocomotorNet.num_sinusoids`, `LocomotorNet.bias`

### `neuroevolution/net/misc.py` (3 of 4)

* modelled: `fill_parameters`, `parameter_vector`, `count_parameters`
* not modelled: `device_of_module`

### `neuroevolution/net/multilayered.py` (1 of 6)

* modelled: `MultiLayered.forward`
* not modelled: `MultiLayered.__init__`, `MultiLayered.__iter__`, `MultiLayered.__getitem__`, `MultiLayered.__len__`, `MultiLayered.append`

### `neuroevolution/net/parser.py` (9 of 12)

* modelled: `NetParsingError._to_string`, `submodules`, `concat_modules`, `_get_nn_module`, `_eval_with_constants`, `_process_call_expr`, `_process_rshift_expr`, `_process_expr`, `str_to_net`
* not modelled: `NetParsingError.__init__`, `NetParsingError.__str__`, `NetParsingError.__repr__`

### `neuroevolution/net/rl.py` (10 of 12)

* modelled: `_accumulate`, `_accumulate_across_dicts`, `_accumulate_all_across_dicts`, `reset_env`, `take_step_in_env`, `ActClipWrapperModule.forward`, `ObsNormWrapperModule.forward`, `AliveBonusScheduleWrapper.__init__`, `AliveBonusScheduleWrapper.reset`, `AliveBonusScheduleWrapper.step`
* not modelled: `ActClipWrapperModule.__init__`, `ObsNormWrapperModule.__init__`

### `neuroevolution/net/runningnorm.py` (18 of 28)

* modelled: `_clamp`, `RunningNorm.__init__`, `RunningNorm.to`, `RunningNorm._verify`, `RunningNorm._has_no_data`, `RunningNorm._has_data`, `RunningNorm.reset`, `RunningNorm.update`, `RunningNorm.stats`, `RunningNorm.mean`, `RunningNorm.stdev`, `RunningNorm.sum`, `RunningNorm.sum_of_squares`, `RunningNorm.normalize`, `RunningNorm.update_and_normalize`, `RunningNorm.to_layer`, `ObsNormLayer.__init__`, `ObsNormLayer.forward`
* not modelled: `RunningNorm.device`, `RunningNorm.dtype`, `RunningNorm.shape`, `RunningNorm.min_variance`, `RunningNorm.low`, `RunningNorm.high`, `RunningNorm._like_its_own`, `RunningNorm.count`, `RunningNorm.__repr__`, `RunningNorm.__copy__`

### `neuroevolution/net/runningstat.py` (11 of 13)

* modelled: `RunningStat.__init__`, `RunningStat.reset`, `RunningStat.count`, `RunningStat.sum`, `RunningStat.sum_of_squares`, `RunningStat.mean`, `RunningStat.stdev`, `RunningStat.update`, `RunningStat.normalize`, `RunningStat.to`, `RunningStat.to_layer`
* not modelled: `RunningStat.__copy__`, `RunningStat.__repr__`

### `neuroevolution/net/statefulmodule.py` (4 of 4)

* modelled: `StatefulModule.__init__`, `StatefulModule.forward`, `StatefulModule.reset`, `ensure_stateful`

### `neuroevolution/net/vecrl.py` (28 of 40)

* modelled: `_must_be_supported_space`, `convert_to_torch_bool`, `_unbatch_space`, `_batch_space`, `TorchWrapper.__init__`, `TorchWrapper.__infer_array_type`, `TorchWrapper.reset`, `TorchWrapper.step`, `TorchWrapper.unwrapped`, `make_brax_env`, `make_gym_env`, `make_vector_env`, `reset_tensors`, `Policy.__init__`, `Policy.set_parameters`, `Policy.__call__`, `Policy.reset`, `Policy.to_torch_module`, `_batch_info_dicts`, `SyncVectorEnv.__init__`, `SyncVectorEnv.__pop_seed_kwargs`, `SyncVectorEnv.__move_to_target_device`, `SyncVectorEnv.__move_each_to_target_device`, `SyncVectorEnv.seed`, `SyncVectorEnv.reset`, `SyncVectorEnv.step`, `SyncVectorEnv.render`, `SyncVectorEnv.close`
* not modelled: `is_brax_env`, `array_type`, `convert_from_torch`, `convert_to_torch`, `TorchWrapper.array_type`, `TorchWrapper.seed`, `TorchWrapper.render`, `TorchWrapper.close`, `Policy.parameters`, `Policy.h`, `Policy.parameter_length`, `Policy.wrapped_module`

### `neuroevolution/supervisedne.py` (10 of 10)

* modelled: `SupervisedNE.__init__`, `SupervisedNE._make_dataloader`, `SupervisedNE.make_dataloader`, `SupervisedNE._evaluate_using_minibatch`, `SupervisedNE._loss`, `SupervisedNE.loss`, `SupervisedNE._prepare`, `SupervisedNE.get_minibatch`, `SupervisedNE._evaluate_network`, `SupervisedNE._evaluate_batch`

### `neuroevolution/vecgymne.py` (37 of 45)

* modelled: `_is_numpy_array_entirely_inf`, `_is_numpy_array_entirely_positive_inf`, `_is_numpy_array_entirely_negative_inf`, `_numpy_arrays_specify_no_bounds`, `_numpy_arrays_specify_bounds`, `_make_dummy_env`, `_env_spaces`, `_env_constants_for_str_net`, `_env_constants_for_callable_net`, `VecGymNE.__init__`, `VecGymNE._parallelize`, `VecGymNE._set_actor_max_num_envs`, `VecGymNE.set_episode_count`, `VecGymNE.set_interaction_count`, `VecGymNE.interaction_count`, `VecGymNE.episode_count`, `VecGymNE._get_local_episode_count`, `VecGymNE._get_local_interaction_count`, `VecGymNE._get_env`, `VecGymNE._nonserialized_attribs`, `VecGymNE._grad_device`, `VecGymNE._normalize_observation`, `VecGymNE._make_sync_data_for_actors`, `VecGymNE.set_observation_stats`, `VecGymNE._use_sync_data_from_main`, `VecGymNE.pop_observation_stats`, `VecGymNE._make_sync_data_for_main`, `VecGymNE.update_observation_stats`, `VecGymNE._use_sync_data_from_actors`, `VecGymNE._make_pickle_data_for_main`, `VecGymNE._use_pickle_data_from_main`, `VecGymNE._evaluate_batch`, `VecGymNE._evaluate_subbatch`, `VecGymNE.get_env`, `VecGymNE.to_policy`, `VecGymNE.save_solution`, `VecGymNE.network_device`
* not modelled: `VecGymNE._extra_status`, `VecGymNE.observation_normalization`, `VecGymNE._make_running_norm`, `VecGymNE._transfer_running_norm`, `VecGymNE._ensure_obsnorm`, `VecGymNE.get_observation_stats`, `VecGymNE.max_num_envs`, `VecGymNE.make_net`

### `operators/base.py` (11 of 18)

* modelled: `Operator.__init__`, `Operator._respect_bounds`, `Operator.__call__`, `CopyingOperator.__init__`, `CopyingOperator.__call__`, `CrossOver.__init__`, `CrossOver._compute_num_tournaments`, `CrossOver._do_tournament`, `CrossOver._make_children_batch`, `CrossOver._do`, `SingleObjOperator.__init__`
* not modelled: `Operator.problem`, `Operator.dtype`, `Operator._do`, `CopyingOperator._do`, `CrossOver.obj_index`, `CrossOver._do_cross_over`, `SingleObjOperator.obj_index`

### `operators/real.py` (12 of 13)

* modelled: `GaussianMutation.__init__`, `GaussianMutation._do`, `MultiPointCrossOver.__init__`, `MultiPointCrossOver._do_cross_over`, `OnePointCrossOver.__init__`, `TwoPointCrossOver.__init__`, `SimulatedBinaryCrossOver.__init__`, `SimulatedBinaryCrossOver._do_cross_over`, `PolynomialMutation.__init__`, `PolynomialMutation._do`, `CosynePermutation.__init__`, `CosynePermutation._do`
* not modelled: `CosynePermutation.obj_index`

### `operators/sequence.py` (2 of 2)

* modelled: `CutAndSplice._cut_and_splice`, `CutAndSplice._do_cross_over`

### `optimizers.py` (11 of 17)

* modelled: `TorchOptimizer.__init__`, `TorchOptimizer.ascent`, `TorchOptimizer.contained_optimizer`, `Adam.__init__`, `SGD.__init__`, `ClipUp.__init__`, `ClipUp._clip`, `ClipUp.ascent`, `ClipUpParameterGroup.__getitem__`, `ClipUpParameterGroup.__setitem__`, `get_optimizer_class`
* not modelled: `ClipUp.contained_optimizer`, `ClipUp.param_groups`, `ClipUpParameterGroup.__init__`, `ClipUpParameterGroup.__iter__`, `ClipUpParameterGroup.__len__`, `ClipUpParameterGroup.__repr__`

### `testing.py` (7 of 9)

* modelled: `_to_numpy_dtype`, `_to_numpy`, `assert_allclose`, `assert_almost_between`, `assert_dtype_matches`, `assert_shape_matches`, `assert_eachclose`
* not modelled: `_to_torch_dtype`, `_to_torch`

### `tools/cloning.py` (7 of 10)

* modelled: `deep_clone`, `Clonable.clone`, `Clonable.__copy__`, `Clonable.__deepcopy__`, `ReadOnlyClonable.clone`, `ReadOnlyClonable.__copy__`, `ReadOnlyClonable.__deepcopy__`
* not modelled: `Clonable._get_cloned_state`, `Serializable.__getstate__`, `ReadOnlyClonable._get_mutable_clone`

### `tools/constraints.py` (6 of 6)

* modelled: `_violation`, `violation`, `_log_barrier`, `log_barrier`, `_penalty`, `penalty`

### `tools/hook.py` (8 of 14)

* modelled: `Hook.__init__`, `Hook.__call__`, `Hook.accumulate_dict`, `Hook.accumulate_sequence`, `Hook.__getitem__`, `Hook.__setitem__`, `Hook.__delitem__`, `Hook.insert`
* not modelled: `Hook._to_string`, `Hook.__repr__`, `Hook.__str__`, `Hook.__len__`, `Hook.args`, `Hook.kwargs`

### `tools/immutable.py` (26 of 27)

* modelled: `_is_basic_data`, `_numpy_array_stores_objects`, `_is_numpy_array_immutable`, `is_immutable_container_or_tensor`, `as_immutable`, `mutable_copy`, `ImmutableContainer._get_cloned_state`, `ImmutableContainer.__setstate__`, `ImmutableSequence.__init__`, `ImmutableSequence.__len__`, `ImmutableSequence.__getitem__`, `ImmutableSequence.__add__`, `ImmutableSequence.__radd__`, `ImmutableSequence.__eq__`, `ImmutableSequence.__ne__`, `ImmutableList._get_mutable_clone`, `ImmutableSet.__init__`, `ImmutableSet.__contains__`, `ImmutableSet.__len__`, `ImmutableSet._get_mutable_clone`, `_acceptable_key`, `ImmutableDict.__init__`, `ImmutableDict.__getitem__`, `ImmutableDict.__iter__`, `ImmutableDict.__len__`, `ImmutableDict._get_mutable_clone`
* not modelled: `ImmutableSet.__iter__`

### `tools/misc.py` (48 of 64)

* modelled: `expect_none`, `to_torch_dtype`, `to_numpy_dtype`, `is_dtype_object`, `is_sequence`, `is_dtype_integer`, `is_dtype_float`, `is_dtype_bool`, `is_dtype_real`, `is_integer`, `is_real`, `is_bool`, `is_integer_vector`, `is_bool_vector`, `is_real_vector`, `cast_tensors_in_container`, `dtype_of_container`, `device_of_container`, `ensure_tensor_length_and_dtype`, `clip_tensor`, `modify_tensor`, `_modify_vector_using_bounds`, `_modify_vector_using_max_change`, `modify_vector`, `empty_tensor_like`, `ErroneousResult.__bool__`, `ErroneousResult.call`, `numpy_copy`, `split_workload`, `make_tensor`, `make_empty`, `_out_tensor_for_random_operation`, `_scalar_requested`, `_scalar_tensor`, `make_zeros`, `make_ones`, `make_nan`, `make_I`, `_generator_of`, `_generator_kwargs`, `make_uniform`, `make_gaussian`, `make_randint`, `as_tensor`, `stdev_from_radius`, `to_stdev_init`, `pass_info_if_needed`, `set_default_logger_config`
* not modelled: `SuppressSacredExperiment.empty_decorator`, `clone`, `ErroneousResult.__init__`, `ErroneousResult._to_string`, `ErroneousResult.__str__`, `ErroneousResult.__repr__`, `is_tensor_on_cpu`, `multiply_rows_by_scalars`, `rowwise_sum`, `_out_tensor`, `ensure_ray`, `dtype_of`, `device_of`, `message_from`, `storage_ptr`, `make_batched_false_for_vmap`

### `tools/objectarray.py` (19 of 26)

* modelled: `ObjectArray.__init__`, `ObjectArray.shape`, `ObjectArray.size`, `ObjectArray.ndim`, `ObjectArray.dim`, `ObjectArray.numel`, `ObjectArray.repeat`, `ObjectArray.device`, `ObjectArray.__getitem__`, `ObjectArray.__setitem__`, `ObjectArray.set_item`, `ObjectArray.__len__`, `ObjectArray.__iter__`, `ObjectArray.clone`, `ObjectArray.__copy__`, `ObjectArray.__deepcopy__`, `ObjectArray.__setstate__`, `ObjectArray.numpy`, `ObjectArray.from_numpy`
* not modelled: `ObjectArrayStorage.__init__`, `ObjectArrayStorage.data_ptr`, `ObjectArray.dtype`, `ObjectArray.get_read_only_view`, `ObjectArray.is_read_only`, `ObjectArray.storage`, `ObjectArray.untyped_storage`

### `tools/ranking.py` (6 of 6)

* modelled: `centered`, `linear`, `nes`, `normalized`, `raw`, `rank`

### `tools/readonlytensor.py` (13 of 14)

* modelled: `ReadOnlyTensor.__getattribute__`, `ReadOnlyTensor.__cannot_modify`, `ReadOnlyTensor.clone`, `ReadOnlyTensor.__mutable_if_independent`, `ReadOnlyTensor.__getitem__`, `ReadOnlyTensor.reshape`, `ReadOnlyTensor.numpy`, `ReadOnlyTensor.__array__`, `ReadOnlyTensor.__copy__`, `ReadOnlyTensor.__deepcopy__`, `ReadOnlyTensor.__torch_function__`, `read_only_tensor`, `as_read_only_tensor`
* not modelled: `_device_and_dtype_kwargs`

### `tools/recursiveprintable.py` (3 of 3)

* modelled: `RecursivePrintable.to_string`, `RecursivePrintable.__str__`, `RecursivePrintable.__repr__`

### `tools/structures.py` (84 of 94)

* modelled: `do_where`, `CMemory.__init__`, `CMemory._is_dtype_bool`, `CMemory._key_must_be_valid`, `CMemory._get_key`, `CMemory._get_value`, `CMemory._get_where`, `CMemory.prepare_key_tensor`, `CMemory.prepare_value_tensor`, `CMemory.prepare_where_tensor`, `CMemory._get_address`, `CMemory.get`, `CMemory.set_`, `CMemory.add_`, `CMemory.add_circular_`, `CMemory.multiply_`, `CMemory.subtract_`, `CMemory.divide_`, `CMemory.__getitem__`, `CMemory.__setitem__`, `CMemory.data`, `CMemory.key_shape`, `CMemory.key_ndim`, `CMemory.batch_shape`, `CMemory.batch_ndim`, `CMemory.is_batched`, `CMemory.value_shape`, `CMemory.value_ndim`, `CMemory.dtype`, `CMemory.device`, `Structure.batch_ndim`, `Structure.is_batched`, `CDict.__init__`, `CDict.get`, `CDict.set_`, `CDict.add_`, `CDict.subtract_`, `CDict.divide_`, `CDict.multiply_`, `CDict.contains`, `CDict.__getitem__`, `CDict.__setitem__`, `CDict.clear`, `CDict.data`, `CList.__init__`, `CList._is_empty`, `CList._has_one_element`, `CList._is_full`, `CList._considering_where`, `CList._get_info_for_adding_element`, `CList._get_info_for_removing_element`, `CList._move_begin_forward`, `CList._move_end_forward`, `CList._move_begin_backward`, `CList._move_end_backward`, `CList._get_key`, `CList._is_underlying_key_valid`, `CList._mod_underlying_key`, `CList._get_underlying_key`, `CList.get`, `CList.__getitem__`, `CList._apply_modification_method`, `CList.set_`, `CList.__setitem__`, `CList.add_`, `CList.subtract_`, `CList.multiply_`, `CList.divide_`, `CList.append_`, `CList.push_`, `CList.appendleft_`, `CList.pop_`, `CList.popleft_`, `CList.clear`, `CList.data`, `CList.length`, `CList.max_length`, `CBag.__init__`, `CBag.push_`, `CBag._shuffle`, `CBag.pop_`, `CBag.clear`, `CBag.length`, `CBag.data`
* not modelled: `Structure.value_shape`, `Structure.value_ndim`, `Structure.batch_shape`, `Structure.dtype`, `Structure.device`, `Structure.prepare_value_tensor`, `Structure.prepare_where_tensor`, `Structure._get_value`, `Structure._get_where`, `Structure.__contains__`

### `tools/tensormaker.py` (17 of 18)

* modelled: `TensorMakerMixin.__get_dtype_and_device_kwargs`, `TensorMakerMixin.__get_size_args`, `TensorMakerMixin.__get_generator_kwargs`, `TensorMakerMixin.__get_all_args_for_maker`, `TensorMakerMixin.__get_all_args_for_random_maker`, `TensorMakerMixin.make_empty`, `TensorMakerMixin.make_zeros`, `TensorMakerMixin.make_ones`, `TensorMakerMixin.make_nan`, `TensorMakerMixin.make_I`, `TensorMakerMixin.make_uniform`, `TensorMakerMixin.make_gaussian`, `TensorMakerMixin.make_randint`, `TensorMakerMixin.as_tensor`, `TensorMakerMixin.ensure_tensor_length_and_dtype`, `TensorMakerMixin.make_uniform_shaped_like`, `TensorMakerMixin.make_gaussian_shaped_like`
* not modelled: `TensorMakerMixin.make_tensor`
