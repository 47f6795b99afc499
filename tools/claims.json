{
 "C01": {
  "status": "proved",
  "note": "Refinement to a bounded deque for every history with max_length >= 2, values of the declared shape and indices in [-max_length, max_length). Outside of these conditions the code departs from the deque: C01_violated_for_max_length_one, C01_violated_by_bad_shape, and C03 for larger indices. Batch shapes are the subject of C155."
 },
 "C02": {
  "status": "proved",
  "note": "Every masked history refines independent deques. clear(where=...) is excluded: in the code it always raises AttributeError (C02_violated_masked_clear)."
 },
 "C03": {
  "status": "partial",
  "note": "Indices in [-max_length, max_length) outside the current length are rejected without effect; C03_violated shows the index max_length is accepted after one append for every capacity."
 },
 "C04": {
  "status": "partial",
  "note": "All histories of masked set_ calls, any number of key coordinates and offsets; keys of unselected items must be in range (C04_unselected_key_can_raise shows the IndexError otherwise). Batch shapes are the subject of C155."
 },
 "C05": {
  "status": "partial",
  "note": "Proved for add_, subtract_, add_circular_, masked multiply_/divide_ and boolean memories. False of the code for unmasked multiply_/divide_ (adds instead) and for divide_ on integer memories: C05_violated_*."
 },
 "C06": {
  "status": "proved",
  "note": "All histories after clear(). A fresh dictionary is uninitialised (C06_violated_fresh_dictionary); clear(where=...) always raises AttributeError in the code and is excluded. Batch shapes are the subject of C155."
 },
 "C07": {
  "status": "partial",
  "note": "Every history on a bag with one batch dimension is a trace of a multiset specification, for any noise. Guards: max_length >= 2, value range starting at or below 1, no integer overflow; both guards are necessary (C07_violated_*). With no batch dimension, or with several, no pop_ ever succeeds (C07_violated_batch_shape)."
 },
 "C08": {
  "status": "proved",
  "note": "All workloads and all positive actor counts."
 },
 "C09": {
  "status": "proved",
  "note": "All batches, all num_pieces >= 1 and max_size >= 1. math.ceil(total / max_size) is exact in the model, floating point in the code (they agree below 2^53)."
 },
 "C10": {
  "status": "proved",
  "note": "Every split, every completion order; also for arbitrary per-actor evaluators (rows in order). Transport of data by ray is trusted to be faithful."
 },
 "C100": {
  "status": "proved",
  "note": "What the operators compute is an arbitrary function (length-preserving for mutation and permutation); see C26-C32 for it."
 },
 "C101": {
  "status": "partial",
  "note": "Half of the documented number is produced (C101_half_partial); more than one documented cross-over always gives too few children (C101_violated_rate)."
 },
 "C102": {
  "status": "partial",
  "note": "Values proved for evaluated populations in exact arithmetic (argmax/argmin as specified oracles); names proved for lists of excluded names. Missing because false: a string given as `exclude` (as GaussianSearchAlgorithm does) excludes nothing, and excluding pop_best makes pop_best_eval None."
 },
 "C103": {
  "status": "partial",
  "note": "Proved for every history in which no problem that evaluated in its own process is copied, actors are removed only when there are some, and no problem with its own generator uses actors. Missing because false in the code: each of the three excluded cases fails (C103_violated_*)."
 },
 "C104": {
  "status": "partial",
  "note": "Proved for settings which include the defaults: initial standard deviation within the limits, stdev_min given (positive unless stdev_max_change is given) or stdev_max_change at most 1. Outside of these the code differs: without stdev_min the class lets the standard deviation become negative where the functional search stops at 0; an initial standard deviation outside the limits is treated differently. Gradients are an arbitrary common function of center, standard deviation and evaluation data (both call Distribution.compute_gradients)."
 },
 "C105": {
  "status": "partial",
  "note": "Proved for networks whose hidden state of zeros means the same as no hidden state (shown for the library's RNN and LSTM), which keep no state in their own attributes, and for callers which do not give the same tensor object twice. The code violates the claim otherwise: Policy.reset (and StatefulModule.reset) does not reset the time step of a LocomotorNet, and set_parameters(..., indices) overwrites the tensor given by the caller before. Parameters are 2-dimensional in the model."
 },
 "C106": {
  "status": "partial",
  "note": "Proved for problems whose _evaluate_all is not decorated. A decorated _evaluate_all is not refused as documented: the code compares bound methods with `is`, which never holds (C106_violated_evaluate_all)."
 },
 "C107": {
  "status": "partial",
  "note": "Violated in two places: GymNE.save_solution raises an AttributeError if observations are normalised and none was seen yet (to_policy succeeds); the network exported by VecGymNE for a cpu tensor or a NumPy float32 array shares its memory. VecGymNE has no evaluation with frozen statistics, so there the comparison is with steps whose observations were normalised with the exported statistics."
 },
 "C108": {
  "status": "proved",
  "note": "Python's recursion limit is not modelled. A cycle through a tuple is not preserved by casting (as in C37)."
 },
 "C109": {
  "status": "partial",
  "note": "Proved for the separable Gaussians: which dictionaries are accepted, the resulting parameters, one dtype and device along every history, modified copies. The code violates: an explicit dtype does not help with mixed tensors (C109_violated_explicit_dtype, C109_violated_modified_copy); the ExpGaussian constructor and update_parameters write into the caller's dictionaries (C109_violated_exp_constructor, C109_violated_rates); a new sigma keeps the old inverse (C109_violated_stale_inverse)."
 },
 "C11": {
  "status": "partial",
  "note": "Exact for every history without NaN; for histories with NaN the stored extreme is exact w.r.t. the NaN-free batches and never worsens. False for solutions sharing a batch with a NaN evaluation (C11_violated_by_nan, C11_violated_witness), and the first evaluation of a batch with a NaN raises AttributeError."
 },
 "C110": {
  "status": "proved",
  "note": "The names of the required parameters are distinct. The distribution class and the fitness function are parameters of the model; random draws inside a batch are not shown (vmap with randomness=different)."
 },
 "C111": {
  "status": "partial",
  "note": "Proved for every call without the following, where the code violates the claim: names of dtypes in the random makers, use_eval_dtype in make_randint, out in make_empty, out without dimensions in make_ones and make_nan, zeros, ones and NaN for object dtypes, object arrays on other devices, arguments contradicting out, and the function as_tensor without a dtype (C111_violated_*). Names of dtypes, the dtypes that can represent NaN and those of which normal numbers can be drawn are parameters; torch's reading of sizes is part of the model."
 },
 "C112": {
  "status": "partial",
  "note": "The code violates the claim: an ImmutableList raises TypeError when compared with something that is not iterable (also inside a membership test) and equals strings and dictionaries which iterate to its items; a tuple in a membership test of an ImmutableSet is a TypeError; ImmutableSets cannot be unpickled; dictionaries with tuples as keys have no mutable copy. Proved: exact acceptance of as_immutable and its result; equality as for ordinary values wherever lists meet lists, hence equality with the original; item access, concatenation, membership, dictionary lookups, pickling without sets, mutable copies without tuple keys."
 },
 "C113": {
  "status": "proved",
  "note": "The decorated functions are modelled with the model of expects_ndim (C60); what they compute for one search is a parameter whose result shape may not depend on the entries of its arguments. Batches with a dimension of size 0 are excluded. The construction of the initial states is not part of this claim. Dtypes and devices: C165."
 },
 "C114": {
  "status": "proved",
  "note": "Gradients of SeparableGaussian, SymmetricSeparableGaussian, ExpSeparableGaussian and ExpGaussian are the derivatives of the utility-weighted log-likelihood (Mathlib's gaussianPDFReal; full Gaussian by change of variables, logFull_spec); small updates increase it."
 },
 "C115": {
  "status": "proved",
  "note": "Order-based rankings and whole runs of XNES, SNES, PGPE, CEM, CMA-ES invariant under increasing fitness transformations and sense duality; coordinate equivariance of whole runs. Cholesky factorisation: existence and uniqueness proved, torch.linalg.cholesky assumed to return it."
 },
 "C116": {
  "status": "proved",
  "note": "Step size: exact trichotomy for both exponents. Unit variance of the paths is proved with Mathlib's variance for independent components and a fixed order of the population. Schedule for separable and non-separable runs of any length."
 },
 "C117": {
  "status": "partial",
  "note": "Loop refinement, direction, missing fitness, symmetry and the full content of the option dictionary are proved. Missing because the code violates it (C117_bounds_violated): bounds given in cma_options to a problem with bounds are silently replaced instead of refused."
 },
 "C118": {
  "status": "partial",
  "note": "Proved without actors and for numeric num_actors. Missing because the code violates it: with actors the limit never arrives, the remote call lacks its kwargs argument (C118_violated_actors: TypeError at every evaluation, or the limit is ignored, depending on when ray checks arguments); a string num_actors makes the constructor raise TypeError (C118_violated_named_actors)."
 },
 "C119": {
  "status": "partial",
  "note": "Legal actions are proved when discrete actions are numbered from 0; Gaussian noise is proved for GymNE. The full claim is false: both problem classes ignore the start of a discrete space (C119_violated_start), and VecGymNE adds uniform noise in [0, stdev) with mean stdev/2 (C119_violated_noise, C119_violated_noise_mean)."
 },
 "C12": {
  "status": "proved",
  "note": "Exact finite arithmetic with IEEE infinities and NaN."
 },
 "C120": {
  "status": "partial",
  "note": "Order of stages, failures, freshness of the status, single preparation and remote access are proved over all histories. Shared attributes are proved to reach the actors if they are set before the first evaluation and actors are not replaced; otherwise the claim is false (C120_violated_replaced, C120_violated_change)."
 },
 "C121": {
  "status": "proved",
  "note": "Expectations are Lebesgue integrals over independent standard normal draws; the estimates are the model's make_gaussian followed by _compute_gradients. C121_slopes shows that the slopes exist, C121_cases that bounded functions and the sphere function are covered; exact arithmetic."
 },
 "C122": {
  "status": "partial",
  "note": "The index right behind the last row is accepted (C122_violated_end); one number is broadcast over all decision values (C122_violated_scalar); a tensor from access_values stays writable after a later evaluation, giving a stale evaluation (C122_violated_stale). The rest is proved for every history; numeric dtypes."
 },
 "C123": {
  "status": "partial",
  "note": "Proved for floating point data. Violated for integer data: assert_allclose rounds the actual numbers towards zero to the integer dtype of the desired ones (1.9 passes for 1), assert_almost_between rounds the bounds (0 passes for [0.5, 2]) and assert_eachclose rounds the value (an array of ones passes for 1.5); see C123_violated_allclose, C123_violated_between and C123_violated_eachclose. A shape given as a list never matches (C123_shape)."
 },
 "C124": {
  "status": "partial",
  "note": "Violated: repeat(n) with a number, the documented call, always raises a TypeError (C124_violated_repeat) and a tuple with several numbers is accepted (C124_violated_repeat_tuple); a slice made with the constructor of a read-only array is writable and shares its memory (C124_violated_read_only); a selection with a repeated position has aliased elements (C124_violated_duplicates). Everything else is proved for all histories."
 },
 "C125": {
  "status": "partial",
  "note": "All sequence operations are proved, as is the call for functions which do not change the hook or only add to its end. Violated: a function which removes itself while the hook is called makes the hook skip the function after it (C125_violated_self_removal)."
 },
 "C126": {
  "status": "partial",
  "note": "Proved for the constructors of PGPE, SNES, CEM and XNES and for optimizers made by name: exactly which arguments are accepted, all resulting settings, the default formulas. Three disagreements are proved: a stepsize in optimizer_config is silently ignored; a symmetric PGPE with distributed=True on a problem without actors accepts an odd popsize and then cannot draw its first population; SNES refuses a non-numeric problem with the TypeError of a logarithm of None instead of the ValueError of its check."
 },
 "C127": {
  "status": "proved",
  "note": "Status view over the reporter model of C39, over arbitrary getters; clock over arbitrary histories of steps, resets and runs."
 },
 "C128": {
  "status": "partial",
  "note": "The code violates parts: the default num_points of MultiPointCrossOver cannot be used; odd or negative num_children, empty tournaments and one-point cross-over of one gene are accepted at construction although no call succeeds; small rates raise an IndexError; GaussianMutation accepts object problems; CosynePermutation raises an AttributeError for a non-problem. The rest is proved."
 },
 "C129": {
  "status": "partial",
  "note": "Proved: combining never raises, which keys appear, stacked or listed, one element per sub-environment, order, empty_info and device. Violated: with a target device, arrays that cannot be stacked stay on the CPU inside a list (C129_violated_device)."
 },
 "C13": {
  "status": "partial",
  "note": "All legal histories incl. views (also strided) and copies. Outside of Legal: documented-unsafe keep_evals writes, writes into a tensor kept from an earlier access_values after the batch has been evaluated again, and set_values on object batches failing midway (C13_violated_*)."
 },
 "C130": {
  "status": "partial",
  "note": "Proved for boxes with at least one dimension and discrete spaces that begin at 0, every number of sub-environments, every name and every option dictionary. Violated: a discrete space with another start comes back as one that begins at 0 (C130_violated_start); boxes of shape () are accepted when batching and refused when wrapping (C130_violated_scalar). gym.make, brax and the dtype of boxes are not modelled."
 },
 "C131": {
  "status": "partial",
  "note": "Proved for all dtypes and values except bfloat16. Violated: bfloat16 dtypes, scalars and vectors raise TypeError (C131_violated_bfloat16); np.dtype(object) is not recognised as an object dtype (C131_violated_object); the empty string is a vector of every kind (C131_violated_empty); every bytes object is a vector of integers and reals, though not a sequence (C131_violated_bytes)."
 },
 "C132": {
  "status": "partial",
  "note": "Proved for all statuses, names, paddings and histories, with the two cases in which it fails: saving twice under the same explicit name loses the earlier file when writing fails (C132_violated_overwrite), and a run with observation statistics on another device and no observation yet cannot be saved (C132_violated_stats). Alphabetical order holds as long as the generation fits the padding (C132_violated_order)."
 },
 "C133": {
  "status": "proved",
  "note": "Proved for all intervals, statuses and histories; services are the lists of what they receive. The data-frame rows are proved independent of later writes by an invariant on who owns which array."
 },
 "C134": {
  "status": "partial",
  "note": "Proved for all programs, states and schedules, for all draws of problems, operators and searchers, by noninterference. Missing, because the code violates it: the action noise and the environment seeds of VecGymNE always come from the global generators (C134_violated_vecgymne, C134_global). One draw stands for one call of a random function; the sequence of numbers belonging to a seed is a parameter. Device mismatches between generators and tensors are the subject of C167."
 },
 "C135": {
  "status": "partial",
  "note": "The documented configuration is proved for a logger that is not configured, and for overriding a logger with at most one handler. Overriding removes handlers from the list it iterates over, so every second handler stays (C135_override), and from the second overriding call on messages are printed twice (C135_violated_override)."
 },
 "C136": {
  "status": "partial",
  "note": "Proved as stated, except where the code differs: fractional bounds of integer tensors are truncated (C136_violated_clip_integer), a number as shape of an object array ends in an unbound variable (C136_violated_empty_like), the device of an object array is ignored by make_tensor (C136_violated_make_objects_device), numpy_copy accepts neither PyTorch dtypes nor tensors that require gradients (C136_violated_numpy_copy, C136_violated_numpy_copy_grad). Exact numbers, no NaN."
 },
 "C137": {
  "status": "partial",
  "note": "Proved for all environments with the usual spaces, all signatures and arguments. Violated: GymNE drops num_subbatches; VecGymNE raises a TypeError for every string num_actors, and an AttributeError for schedules of a wrong length; network_args cannot replace obs_space and act_space in network strings of GymNE."
 },
 "C138": {
  "status": "partial",
  "note": "Proved for all environments and policies as state machines: what an episode is, termination with a maximal length, average and sums, counters and statistics, visualisation. The documented claim that update_stats is ignored without observation normalisation is false (C138_violated_update_stats): the counters depend on it."
 },
 "C139": {
  "status": "partial",
  "note": "Proved for all slices, index lists, masks, merges of fitting batches and splits, and for the constructor arguments. False in the code: column slices are not refused (C139_violated_columns), take with a tuple does not take the named solutions (C139_violated_tuple), merging accepts batches of opposite senses and repeats single columns (C139_violated_merge)."
 },
 "C14": {
  "status": "proved",
  "note": "All shapes; selections are distinct in-range rows."
 },
 "C140": {
  "status": "proved",
  "note": "For all heaps, cycles included: complete text within the depth, cut beyond it, and a bound on the nested calls. Texts of objects that are not containers of the library are given."
 },
 "C141": {
  "status": "partial",
  "note": "Lines for all strings; columns for characters of one byte. Columns are counted in bytes (C141_violated_bytes). Python's own parser is represented by the positions it documents."
 },
 "C142": {
  "status": "partial",
  "note": "Proved for matching arguments; refused arguments are classified. The code violates the rest: a vector of numbers of bins of another length is truncated silently (C142_violated_bins), and a grid with another number of features than the solutions is accepted if one of the numbers is one (C142_violated_mismatch)."
 },
 "C143": {
  "status": "partial",
  "note": "Proved without actors, and with actors for an explicit index. With actors the code violates the rest: no index is a TypeError (C143_violated_none), with_stats=False is ignored (C143_violated_stats), and the dtype of the distribution is not converted (C143_violated_dtype)."
 },
 "C144": {
  "status": "partial",
  "note": "Proved if there are observations, everything can be pickled and sequences are representable as float32. The code violates the rest: a VecGymNE made from a local function cannot save, and the attempt destroys the file (C144_violated_architecture); sequences are rounded to float32 (C144_violated_sequence); a GymNE without observations cannot save (C107_violated_save)."
 },
 "C145": {
  "status": "partial",
  "note": "Passes, choice of the loader, losses of pairs and the refusal of tuples and dictionaries are proved. Missing because false in the code: a data set of tensors which are not in tuples is not refused if a minibatch has two elements (C145_violated_unpaired)."
 },
 "C146": {
  "status": "partial",
  "note": "Proved when at least one of the two sides is a tensor, and all tensors have the same floating dtype and device. Missing because false in the code: numbers only (TypeError, C146_violated_numbers), integer tensors (C146_violated_integers), tensors with different dtypes (C146_violated_mixed)."
 },
 "C147": {
  "status": "partial",
  "note": "Proved for methods of problems, and for environments of problems which make them on demand. Missing because false in the code: before the first evaluation a VecGymNE has no environments, and calls on them fail (C147_violated_envs); accessors cannot be copied (C147_violated_copy)."
 },
 "C148": {
  "status": "partial",
  "note": "Proved: as_immutable yields deeply immutable values with the same content and is idempotent if no writeable ObjectArray is involved, anything else is refused; mutable copies; pickling keeps immutability; copies of values without object arrays stay immutable; clones without numpy object arrays share no container. The code violates the rest: as_immutable of a writeable ObjectArray is an AttributeError, copies of read-only object arrays are writeable, arrays of arrays cannot be copied, deep_clone of a numpy object array shares its contents, and as_immutable of a read-only view changes with the array behind it (C148_violated_*)."
 },
 "C149": {
  "status": "partial",
  "note": "Independence (C149_independent), loggers of the status (C149_status_loggers) and the condition under which a search can be pickled (C149_pickled) are proved for all histories. For PicklingLogger the claim is proved for histories without copies (C149_pickling_loggers_partial) and fails for copies: weak references are copied as they are, so that the logger of a copy saves the original (C149_violated_copy), nothing if the original is gone (C149_violated_dropped); a search with a PicklingLogger cannot be pickled."
 },
 "C15": {
  "status": "proved",
  "note": "For every sorting permutation (ties open) and every argmin/argmax oracle. Evaluations in a linear order (NaN not considered here; see C11)."
 },
 "C150": {
  "status": "partial",
  "note": "Proved for minimisation: argsort and take_best, the rankings centered, linear and nes, elitist runs of any length. For maximisation NaN is the best: C150_violated_maximised, C150_violated_ranks, C150_violated_nes, C150_violated_elitist; for the elites of the cross-entropy method it is the best for either sense (C150_violated_elites)."
 },
 "C151": {
  "status": "partial",
  "note": "Size, candidates and dominance are proved for every step and run. That progress is kept is proved as long as the non-dominated candidates fit into the population. It is false otherwise: take_best uses the argsort permutation of the crowding distances as if it were ranks, so an extreme solution of the front, with infinite crowding distance, is dropped and the best value of an objective is lost."
 },
 "C152": {
  "status": "proved",
  "note": "Exact probabilities as relative numbers of equally likely draws of make_randint; ties of the fitness are broken by sorting, as the code does. Noise with repeated numbers (probability zero for real numbers) is excluded."
 },
 "C153": {
  "status": "proved",
  "note": "Chances are iterated upper integrals over the draws in program order (equal to the usual integrals for measurable functions, upper_eq), so no measurability is assumed of the fitness or the other operators. Exact real arithmetic; fitness deterministic, single objective, finite bounds on every gene. C153_needs_elitism shows the condition is necessary. Searches without elitism: the reported best, C171."
 },
 "C154": {
  "status": "proved",
  "note": "Exact real arithmetic; stated for the functional optimisers, which visit the same centers as the classes (C53). Adam's bound needs beta1^2 < beta2, which the defaults meet."
 },
 "C155": {
  "status": "partial",
  "note": "Reading is right for all contents and keys exactly if all leading batch sizes are 1 (C155_reads_iff_partial), writing too (C155_set_partial). Otherwise the code raises IndexError, reads other batch positions or returns another shape (C155_violated_*). Reads of unbatched memories and lists are views (C155_violated_snapshot, C155_violated_list_snapshot). Values with a shape, and all masks of memories whose leading batch sizes are 1, are in C166."
 },
 "C156": {
  "status": "partial",
  "note": "Accepted for solutions with at least two elements, of problems that can generate solutions (C156_accepted_partial). Violated: problems with one variable are always refused; a problem without initial bounds is refused even with a given center; a population size of 1 is accepted but undefined."
 },
 "C157": {
  "status": "partial",
  "note": "Proved for every iterable whose items all exist at one moment (lists, tuples, with any sharing). The code violates the rest: the memo of as_immutable is keyed by id(item) but does not keep the item alive, so an item made at the address of a discarded one gets the result of that one. For d.items(), zip and enumerate, whose iterators fill their tuple anew, every other element of the result is the first tuple again, for every dictionary of three items or more (C157_violated_*)."
 },
 "C158": {
  "status": "partial",
  "note": "Proved for GymNE without observation normalisation and noise, and for SupervisedNE, for every network whose outputs depend on what it keeps only through something that calls do not change. Violated: LocomotorNet's clock is not reset between episodes and solutions; run leaves the given policy in training mode; exported networks are in training mode although evaluated in evaluation mode; a module given as the network ends with the parameters of the last solution."
 },
 "C159": {
  "status": "partial",
  "note": "Histories accepted by verify=True agree exactly for CMemory, CDict, CBag, and for CList when the keys given together with a default lie in [-max_length, max_length). C159_list_lenient describes every history of an unverified CList of capacity at least 2, also those the verifying list refuses. Violated: get with a default answers an index far outside of the list with an element instead of the default (C159_violated_default)."
 },
 "C16": {
  "status": "proved",
  "note": "Ranks are exactly the iterated non-dominated fronts, and the while loop terminates."
 },
 "C160": {
  "status": "partial",
  "note": "Proved for every history of completed and interrupted calls ending with a completed one: re_evaluate=True (GA, SteadyStateGA, MAPElites), distributed Gaussian searches, CMA-ES; for re_evaluate=False and Cosyne when the evaluation of the initial population was not interrupted; for Gaussian searches when the interruptions come before the first completed step. The rest is false of the code: C160_violated_stuck (the population stays the initial, unevaluated one for ever), C160_violated_cosyne, C160_violated_gaussian, C160_violated_adaptive. Interruptions other than by the fitness function or the operators are not modelled."
 },
 "C161": {
  "status": "partial",
  "note": "Bounds of uniform draws, comparisons, constraint violations, fronts in take_best and the order of ranking weights are proved for every format and every rounding to the nearest, and for runs of any length the limits of the standard deviation (C161_stdev_limits) and its positivity if less than half may be taken away (C161_stdev_positive). False in floating point: a share of a population (0.29 of 100 is 28: C161_violated_share; it may be one less: C161_share_partial); positivity if three quarters may be taken away (C161_violated_stdev); the variance of equal observations (C161_violated_variance), the sums being exact for whole numbers while they are small (C161_running_exact). Pieces: batches of up to 2^53 solutions. Overflow to infinity and division by reciprocals (CUDA) are not modelled."
 },
 "C162": {
  "status": "partial",
  "note": "Proved exactly, by counting, for every dtype, bound, shape, probability, mask, cut count and bag: shares of random integers (up to the number of words divided by n, exact when n divides it), independence of elements and genes, chances of mutation, cross-over, Cosyne selection, Cosyne rearrangements and bag orders. False of the code in two places, with theorems: in a small dtype the remainder makes small values up to twice as likely (C162_violated_randint), and GaussianMutation compares with <=, so a mutation probability of zero still mutates when the draw is exactly zero (C162_violated_zero_probability). Orders assume the argsort of continuous noise is a uniformly random permutation (no ties)."
 },
 "C163": {
  "status": "partial",
  "note": "Proved for all histories of memory actions of which the steps consist. Violated for several objectives (C163_violated_lists): the reported lists of best and worst solutions are the lists the problem goes on modifying; the solutions in them stay (C163_listed_solutions_stay)."
 },
 "C164": {
  "status": "partial",
  "note": "For bounds that are numbers of torch's default dtype: the outer edges are the bounds, every vector is in some cell, and in exactly one if it is on no edge and the bounds are not as close together as the smallest numbers (violated otherwise: C164_violated_order). Violated for dtype=torch.float64: linspace is called without the dtype, so the edges are rounded to float32 and a feature above the upper bound can be in the bin below it (C164_violated_double)."
 },
 "C165": {
  "status": "partial",
  "note": "Tensors are reduced to dtype, device and shape (or whether they have a dimension), with PyTorch's promotion and device rules as part of the model. With stdev_init everything holds for floating point centers. With radius_init it is false of the code: the standard deviation is multiplied with torch.ones(n) of the default dtype and device, so that a half precision center gives a state whose every tell raises, and a center on a CUDA device none at all (C165_violated_radius_half, C165_violated_radius_cuda; C165_radius_exactly says when it holds). Centers of integers are refused by default, and sgd with integers never moves (C165_violated_integer_center, C165_violated_integer_sgd)."
 },
 "C166": {
  "status": "partial",
  "note": "C166_constructor and C166_get in full; C166_update_bool in full for booleans apart from the guards below. Violated: subtract_ and divide_ refuse lists and tuples, which add_ and multiply_ accept (C166_violated_sequences); multiply_ and divide_ without a mask add (C05); a mask with one common key of several coordinates is refused (C155); unselected keys have to be indexable (C04). Limits of the model: batch shapes of at most one dimension up to leading sizes of 1, non-empty batches; other batch shapes are in C155."
 },
 "C167": {
  "status": "partial",
  "note": "Proved in full for making solutions and for searches that are not distributed (C167_local). Violated, with a generator of its own: requests for gradients are refused if the temporary solutions are on another type of device (C167_gradients_partial is exact; C167_violated_aux_device, C167_violated_second_request), and no actor can be started, because EvaluationActor.__init__ calls Problem.seed, which does not exist (C167_violated_actors). PyTorch's rule that a generator serves one type of device is an assumption. Restricted to problems whose _evaluate_all is not decorated (C106)."
 },
 "C168": {
  "status": "proved",
  "note": "Invariant over runs: C168_genetic_algorithm (populations and all solutions the next step evaluates), C168_cosyne, C168_map_elites, and C168_no_new_genes for runs without mutation. Polynomial mutation is assumed to be used where every lower bound is below its upper bound (without this it yields NaN: C26_violated_polynomial); that the first population is within the bounds is C94's subject. Exact arithmetic; what rounding does to SBX and polynomial mutation is not covered."
 },
 "C169": {
  "status": "partial",
  "note": "Budgets (C169_budget, C169_budget_map_elites, C169_budget_cosyne), evaluation once (C169_once), settings (C169_settings) and what the operators see (C169_operators_see_evaluations, C169_operators_see_fresh) are proved for all runs. Freshness is proved except for searches that are not elitist, evaluate parents and children together and make fewer children than popsize, where it is false (C169_violated_stale). A cross-over that comes after a mutation is shown no evaluations and chooses parents without regard to fitness (C169_violated_order)."
 },
 "C17": {
  "status": "proved",
  "note": "Exact arithmetic for the combined key rank + 0.1*crowd/n."
 },
 "C170": {
  "status": "proved",
  "note": "Exact arithmetic over the reals; the draws are independent uniform and normal numbers, and the chance is an upper integral (no measurability of the run is assumed), as in C153. Deterministic evaluation."
 },
 "C171": {
  "status": "proved",
  "note": "Composes the models of C22/C25 (steps), C169 (what is evaluated), C11 (statistics) and C26 (mutation). Exact arithmetic over the reals, deterministic fitness, upper integrals over independent draws as in C153. C153_needs_elitism shows that the population itself need not keep the optimum."
 },
 "C172": {
  "status": "partial",
  "note": "Proved for the full covariance: a whole run without the rank-one update keeps the mean covariance (C172_full_run, C172_full_step), and a generation with both updates keeps it up to 1e-23, given whether the path stalls (C172_full). The decision to stall is taken as given, since it depends on the same draws. Violated for separable searches: with 'active' (the default) every variance grows on average (C172_violated_active: the rescaled negative weights are also applied to what is taken away, cmaes.py 540-542), and when the path stalls every variance shrinks (C172_violated_stalled: cmaes.py 538 leaves out weighted_pc). C172_separable_partial: not active and not stalled."
 },
 "C173": {
  "status": "proved",
  "note": "For given fitnesses (any list) and normal draws: C173_pgpe (both samplers, all divisors), C173_snes, C173_xnes and C173_cem for a generation, the _run theorems for any number of generations, C173_flat for flat fitness functions. C173_cem_stdev_shrinks: although the variance of CEM is unchanged on average, its standard deviation is on average strictly smaller after a generation. Exact arithmetic; no limits on the standard deviation, no optimiser. Where the code divides by zero (fitnesses all equal with the ranking 'normalized', utilities all zero divided by their total), it yields NaN, which the model does not represent."
 },
 "C174": {
  "status": "proved",
  "note": "Exact arithmetic; plain learning rates (no optimiser), no limits on the standard deviation. For raw and normalized the theorems are per generation, as equal fitnesses make the code divide by zero. CMA-ES: without active, or with learning rates c_1 + c_mu <= 1, which the defaults of the non-separable variant satisfy (for other rates see C71)."
 },
 "C175": {
  "status": "proved",
  "note": "Exact arithmetic, independent standard normal draws, no optimiser (plain learning rates) and no limits on the standard deviation; the runs have stdev_learning_rate = 0. The mean statement is for any curvatures and standard deviations, the per-generation mean square too (C175_pgpe_square); the closed form over runs is for equal ones. For the rank-based rankings see C174 (linear functions) and C173 (no information)."
 },
 "C176": {
  "status": "partial",
  "note": "ClipUp: whole runs never get worse (C176_clipup_run), informative generations get strictly better and not NaN (C176_clipup_better). SGD with momentum, dampening and Nesterov: C176_sgd_run. The code violates the rest: Adam's per-coordinate scaling can make the center worse (C176_adam_violated), and with raw fitnesses a generation of equally good solutions makes the center NaN with ClipUp (C176_clipup_flat_violated)."
 },
 "C177": {
  "status": "proved",
  "note": "C177_run (no optimiser), C177_clipup_run and C177_clipup_better, C177_sgd_run on linear functions; C177_raw_same and C177_raw_run for the raw fitnesses. Adam is left out, as in C176 (C176_adam_violated)."
 },
 "C178": {
  "status": "proved",
  "note": "Exact averages over the normal draws (averageAfter iterates the Bochner integral over fresh draws per generation). momentumStep and firstStep are the specification. The convergence theorems follow from a Lyapunov function for second-order recursions. Fitnesses and updates are real numbers; torch.optim.SGD is modelled from its documented rule."
 },
 "C179": {
  "status": "partial",
  "note": "The last sentence is violated by distributed CEM (C179_cem_violated): floor(n * parenthood_ratio) is taken for each actor, so 20 solutions with ratio 0.1 have two elites locally and none with 4 actors, which makes the center NaN; C179_cem_numbers says exactly when there are numbers. All else is proved. Exact arithmetic; no limits on the standard deviation; XNES cannot run distributed (C80)."
 },
 "C18": {
  "status": "partial",
  "note": "pareto_sort orders each front by descending crowding distance (proved). take_best does not: it uses the argsort permutation as if it were ranks; C18_violated gives a witness."
 },
 "C180": {
  "status": "proved",
  "note": "Probability one is over the infinite product of the Gaussian draws of all generations; the exceptional draws do not depend on the fitness function, the center or the standard deviations, so one set of measure zero covers all of them. PGPE with and without mirrored solutions, all ways of dividing the gradient, stdev_min and stdev_max optional; SNES with ClipUp. Distributed searches too, with any shares of the draws that give each actor at least two solutions (SNES: with the rankings nes and centered). That raw fitnesses do make a NaN on a flat function is C176_clipup_flat_violated. Scalar limits."
 },
 "C181": {
  "status": "proved",
  "note": "Exact arithmetic. Plain learning rate with stdev_min for every non-constant linear function; ClipUp for linear functions that depend on every variable, with default limits. One null set serves all fitness functions. SNES with the rankings nes and centered, whose utilities sum to zero. Distributed searches too, with any shares of the draws that give each actor at least two solutions, and both ways of averaging the gradients."
 },
 "C182": {
  "status": "proved",
  "note": "Finite arithmetic is exact: overflow to infinity is not modelled. The normalisation with NaN standard deviations is modelled as normalizeStats; on numbers it is the one of C57 (normalizeStats_eq). That rows left out by a mask spoil the coordinate too is C58_violated_masked_nan."
 },
 "C183": {
  "status": "proved",
  "note": "Exact arithmetic; chances are Lebesgue measures of sets of draws in the unit interval or cube. Genes whose bounds coincide become NaN (C26_violated_polynomial) and are excluded by the statement."
 },
 "C184": {
  "status": "proved",
  "note": "Exact arithmetic, independent uniform draws; the chance is an iterated upper integral, so nothing has to be measurable. One objective, deterministic fitness. The rate comes from the law of C183, uniformly in the parents."
 },
 "C185": {
  "status": "proved",
  "note": "Rate, convergence for one cell, and convergence for all cells of a set at once, over independent uniform draws of the mutation and any law of the draws of the operators before it."
 },
 "C186": {
  "status": "proved",
  "note": "Chance after k generations that the reported best of an objective is not as good as the points of a box is at most (1 - delta)^k; convergence for each objective and for all at once, with either mutation, in every mode of the search. Real arithmetic, ideal uniform and normal draws, deterministic fitness without NaN; take_best in the non-elitist mode is any choice."
 },
 "C187": {
  "status": "partial",
  "note": "Calls and the network's own buffers: proved for all histories. The property buffers gives the names of the buffers instead of the buffers (C187_violated_buffers)."
 },
 "C19": {
  "status": "proved",
  "note": "n >= 2, exact arithmetic. For n = 1 the code divides 0 by 0 and yields NaN (outside the statement)."
 },
 "C20": {
  "status": "proved",
  "note": "Over the reals, exact logarithms."
 },
 "C21": {
  "status": "proved",
  "note": "Over the reals, exact square root."
 },
 "C22": {
  "status": "proved",
  "note": "Single objective for elitism; operators are arbitrary functions of the batch; deterministic fitness for elitism as in the statement."
 },
 "C23": {
  "status": "partial",
  "note": "Proved for re_evaluate=False or re_evaluate_parents_first=True. Violated for re_evaluate=True, re_evaluate_parents_first=False: the step takes parents from the unevaluated population object (C23_violated)."
 },
 "C24": {
  "status": "proved",
  "note": "Refinement to a registry automaton over all call sequences."
 },
 "C25": {
  "status": "proved",
  "note": "Breeding is an arbitrary function; permutation preserves the number of solutions."
 },
 "C26": {
  "status": "partial",
  "note": "Gaussian mutation and SBX in full; polynomial mutation for lower_bound < upper_bound. A gene with lower_bound = upper_bound is accepted by the constructor and becomes NaN (C26_violated_polynomial)."
 },
 "C27": {
  "status": "proved",
  "note": "multi-, two- and one-point cross-over for all parents and draws"
 },
 "C28": {
  "status": "proved",
  "note": "number of tournaments and of children; exact arithmetic for rate * popsize"
 },
 "C29": {
  "status": "proved",
  "note": "argmax is a parameter with its documented contract"
 },
 "C30": {
  "status": "proved",
  "note": "over the reals, before clipping"
 },
 "C31": {
  "status": "proved",
  "note": "per column; draws below 1 (torch.rand)"
 },
 "C32": {
  "status": "proved",
  "note": "all cut points in range"
 },
 "C33": {
  "status": "proved",
  "note": "deterministic finite fitness (the property's hypothesis); argmin/argmax parameters with their contract; features may be infinite or NaN"
 },
 "C34": {
  "status": "proved",
  "note": "exact arithmetic; cover holds for any bounds, uniqueness for lower <= upper"
 },
 "C35": {
  "status": "partial",
  "note": "views, clones, read-only arrays and writes for all histories. Missing: an assignment whose right-hand side overlaps its target smears values (C35_violated_overlapping_assignment); clone(preserve_read_only=True) of a read-only array is writable (modelled so; a clone is not derived by indexing)."
 },
 "C36": {
  "status": "partial",
  "note": "as_immutable proved for all object graphs in which sets hold atoms; the round trip is proved up to tuples coming back as lists. Violations proved: tuples come back as lists, as_immutable of a set of tuples raises TypeError."
 },
 "C37": {
  "status": "proved",
  "note": "All finite graphs of lists, dicts, sets, tuples, tensors and immutable containers in which no cycle passes through a tuple; for tuple cycles (outside the statement) the clone is shown to differ."
 },
 "C38": {
  "status": "proved",
  "note": ""
 },
 "C39": {
  "status": "proved",
  "note": "Getters may read other status keys (well-founded). A value read in the middle of the algorithm's own step stays for that step (C39_mid_step_read_stays)."
 },
 "C40": {
  "status": "proved",
  "note": "Hooks fixed during a run; also what happens when something raises, and what the status holds after a step."
 },
 "C41": {
  "status": "proved",
  "note": "Exact arithmetic for the multiplication of the population size."
 },
 "C42": {
  "status": "proved",
  "note": "All non-zero intervals; interval 0 raises ZeroDivisionError at the first step."
 },
 "C43": {
  "status": "proved",
  "note": "File writing taken to succeed; explicit calls of save() by the user excluded."
 },
 "C44": {
  "status": "proved",
  "note": "C44_modify_tensor: for all finite tensors, scalar/tensor/absent limits and finite max_change; closest allowed value, upper bound always honoured, in_place behaviour. C44_lower_bound_yields documents that lb can lose against max_change; C44_shape_mismatch the IndexError."
 },
 "C45": {
  "status": "proved",
  "note": "For both update rules (additive, multiplicative) and every gradient sequence, by induction over the run. Assumes a finite non-negative stdev_max_change and finite (non-overflowing) targets."
 },
 "C46": {
  "status": "partial",
  "note": "C46_modify_vector_partial and C46_tell_history_partial cover every call and history except an infinite stdev_max_change (the CEM default) with an element of the old stdev equal to 0; C46_violated_zero_stdev proves that the code then returns NaN (0*inf)."
 },
 "C47": {
  "status": "proved",
  "note": "SNES with and without limits, CMA-ES separable and not."
 },
 "C48": {
  "status": "proved",
  "note": "Real arithmetic. Also proved: with an optimizer for the center, XNES raises KeyError at its first update."
 },
 "C49": {
  "status": "proved",
  "note": "Both make_gaussian(symmetric=True) and the functional sampler; draws are arguments."
 },
 "C50": {
  "status": "proved",
  "note": "Over any field of characteristic zero."
 },
 "C51": {
  "status": "proved",
  "note": "Also proved: with a single elite the standard deviation is undefined (torch gives NaN)."
 },
 "C52": {
  "status": "proved",
  "note": "Class (with parameter-group assignments in the history) and functional optimiser; real arithmetic with an explicit all-NaN vector. Also proved: one zero gradient makes every later step NaN."
 },
 "C53": {
  "status": "proved",
  "note": "ClipUp, SGD and also Adam; torch.optim's SGD and Adam are modelled from their documented update rules."
 },
 "C54": {
  "status": "partial",
  "note": "Violated by the code: __setitem__ tests the attribute name instead of the key, so no value is ever refused (C54_violated). Key checks and creation checks proved."
 },
 "C55": {
  "status": "proved",
  "note": "Exact arithmetic; any field of characteristic zero. C55_pooled adds that mean gradients combine to the pooled mean."
 },
 "C56": {
  "status": "proved",
  "note": "Includes termination exactly when the condition is met, and the KeyError for problems without an interaction counter. The actors' loop is proved to agree."
 },
 "C57": {
  "status": "proved",
  "note": "For every well-formed history (single, batch, masked, merged, reset; exact arithmetic): count, mean, variance (clamped), normalisation; order/grouping irrelevance; RunningStat wrapper. Histories where a batch with nothing in it is the first thing seen are excluded (see C58)."
 },
 "C58": {
  "status": "partial",
  "note": "Proved for finite rows when the mask selects something or data exists. Violated: NaN/inf in a masked-out row pollutes the sums; an all-False mask (or empty batch) first leaves the object unusable."
 },
 "C59": {
  "status": "partial",
  "note": "Proved for every history of evaluations, pickling and cloning (going on with the original or with the copy), any scheduler and any number of actors (GymNE; VecGymNE when every actor gets work in each evaluation). Violated: run(update_stats=True) on the main problem is multiplied or lost; an idle VecGymNE actor makes the evaluation fail; after kill_actors the counters so far are multiplied by the number of actors, or, if the problem was pickled before, fall back to those of that time."
 },
 "C60": {
  "status": "proved",
  "note": "The batch dimensions must agree exactly where they overlap (vmap semantics: a size of 1 is not stretched, it raises ValueError), which C60_mismatch states. Functions which raise or use random numbers and empty batch dimensions in the mismatch case are outside the model. Observations: surplus positional arguments are silently dropped; a misspelt variable lets tensors declared as None decide the dtype of numbers (C60_scalar_refused)."
 },
 "C61": {
  "status": "partial",
  "note": "The input is the syntax tree given by Python's parser. Proved: the flat pipeline in the written order for every parenthesization, class lookup (EvoTorch's layers first), arguments, constants and indexed constants; NetParsingError for every unsupported or unknown part provided calls are by plain names. Missing: a call by a dotted name raises AttributeError (C61_violated_dotted_name), and a keyword given twice is accepted (C61_violated_repeated_keyword)."
 },
 "C62": {
  "status": "proved",
  "note": "Networks are lists of named tensors in parameter order; what the network computes is an arbitrary function; devices and dtypes not modelled. parameter_vector of a network without parameters raises (torch.cat of nothing). C62_refused_fill_modifies shows that a refused fill_parameters has already overwritten parameters."
 },
 "C63": {
  "status": "proved",
  "note": "Layers are arbitrary functions of input and optional state; outcomes include exceptions. C63_stateful assumes that the wrapped module returns tensors or tuples (as documented)."
 },
 "C64": {
  "status": "proved",
  "note": "All traces, any number of environments and solutions, num_episodes >= 1, schedules with t0 <= t1, exact arithmetic. Also GymNE rollouts with episode_length."
 },
 "C65": {
  "status": "proved",
  "note": "Per-step bonus equals the specification for t0 <= t1 in both implementations; agreement for every schedule; GymNE.run equals VecGymNE fitness on the same episodes."
 },
 "C66": {
  "status": "partial",
  "note": "Cyclic requests, separate minibatches and the average are proved for every loader and history; common minibatches without actors. With actors each actor has its own loader, and C66_violated_actors shows that identical networks then get different losses in one evaluation."
 },
 "C67": {
  "status": "proved",
  "note": "Exact real arithmetic; finite operands, non-negative multipliers, positive exponent. The counterexample theorems show what happens outside: inf <= inf has a NaN violation, an infinite violation with linear = 0 gives a NaN penalty, exp = 0 penalises satisfied constraints."
 },
 "C68": {
  "status": "proved",
  "note": "For 4*num_actors <= 2^32. An actor whose problem owns a generator calls Problem.seed, which does not exist: see C167_violated_actors."
 },
 "C69": {
  "status": "partial",
  "note": "Membership proved whenever ub-lb+1 fits in the dtype, reachability whenever also lb >= 0 or ub-2*lb fits; make_randint, bool and float dtypes proved in full. The arithmetic is done in the dtype of the result: the C69_violated theorems show a RuntimeError for the full range, out-of-range values for int8 [-100,100] and an unreachable value for int8 [-100,0]."
 },
 "C70": {
  "status": "partial",
  "note": "Exact for Problem.normalize_obj_index and row indices; SolutionBatch accepts the value m (C70_violated)."
 },
 "C71": {
  "status": "partial",
  "note": "Proved for non-active options and for learning rates with c_1 + c_mu <= 1, which the defaults of the non-separable variant satisfy in every dimension. Violated by the defaults of the separable variant for large populations: c_mu > 1 makes the weights of the worst solutions positive."
 },
 "C72": {
  "status": "partial",
  "note": "The range is proved for both variants and the separable variances stay positive (C82). Violated: the non-separable variant limits only the diagonal, and the covariance stops being decomposable."
 },
 "C73": {
  "status": "partial",
  "note": "Proved for every history of method calls by name, operators, item assignments, single out= arguments, clones, numpy views; torch's naming convention for mutating methods is a hypothesis. The C73_violated theorems show the loopholes: a tuple given as out=, a tensor made from the numpy view, an explicit cast."
 },
 "C74": {
  "status": "proved",
  "note": ""
 },
 "C75": {
  "status": "partial",
  "note": "Even sizes and thresholds proved; the documented refusal of an odd popsize without actors is not implemented (C75_violated)."
 },
 "C76": {
  "status": "proved",
  "note": "Exact arithmetic; distances in an extended field with +inf."
 },
 "C77": {
  "status": "partial",
  "note": "Violated by the code: cov returns the transposed product. C77_violated is a reachable witness; C77_cov_partial says exactly when it is right."
 },
 "C78": {
  "status": "proved",
  "note": "Real arithmetic."
 },
 "C79": {
  "status": "proved",
  "note": "Unbatched centers."
 },
 "C80": {
  "status": "partial",
  "note": "Violated by XNES: its matrix gradient is added in place to a vector of zeros (C80_violated_matrix_gradient)."
 },
 "C81": {
  "status": "partial",
  "note": "Violated when there are more actors than solutions: an empty share makes mean_eval NaN (C81_violated_empty_share)."
 },
 "C82": {
  "status": "partial",
  "note": "Proved for c_1 + c_mu < 1, without limits in the non-separable variant, with a decomposition at every step. Violated by the default separable learning rates for large populations and by the stdev limits (C72)."
 },
 "C83": {
  "status": "partial",
  "note": "Violated: c_1 or c_mu given as a number is an AttributeError unless limit_C_decomposition=False."
 },
 "C84": {
  "status": "partial",
  "note": "Proved for batches. Violated for a first single observation: the tensor is kept as the sum and modified in place by the next update."
 },
 "C85": {
  "status": "proved",
  "note": "For every state machine as sub-environment, every action sequence and every num_episodes. Not modelled: info dictionaries, seeds, devices. (The code also resets after the n-th episode, although the documentation promises n-1 automatic resets; this is not visible in the reports.)"
 },
 "C86": {
  "status": "partial",
  "note": "Proved: what SyncVectorEnv accepts has supported first spaces, equal observation shapes, equal action kinds and equal numbers of discrete actions. Violated: box action shapes are never compared; GymNE's check never looks at the action space."
 },
 "C87": {
  "status": "proved",
  "note": "Exact arithmetic; the draws of normal_ are arguments; center and stdev already broadcast."
 },
 "C88": {
  "status": "proved",
  "note": "Exact arithmetic. Bin with equal bounds divides by zero and is excluded."
 },
 "C89": {
  "status": "proved",
  "note": "Activation functions are parameters; the bounds assume gates in [0,1] and tanh in [-1,1]."
 },
 "C90": {
  "status": "proved",
  "note": "Attribute names built from decimal numbers are proved distinct; parameters are arbitrary."
 },
 "C91": {
  "status": "proved",
  "note": "By induction over the history."
 },
 "C92": {
  "status": "partial",
  "note": "Acceptance is characterised exactly (C92_accepted_iff_partial) and the resulting attributes are given for every accepted configuration. Violated: a single objective sense that is neither 'min' nor 'max' is accepted (only sequences are validated), and so is an integer eval_dtype. Dtype aliases are the subject of C131; seeds, hooks and log messages are not modelled here."
 },
 "C93": {
  "status": "partial",
  "note": "Proved for every cluster and request with the cpu as main device, with exact arithmetic. Violated: 'num_devices' with a GPU as main device raises TypeError instead of creating no actors; 'max' GPUs per actor without actors divides by zero."
 },
 "C94": {
  "status": "partial",
  "note": "Proved for every draw, for ordered bounds (and, for integer dtypes, ranges that fit the dtype, see C69). Violated for the strict bounds: initial bounds outside of the bounds and bounds in the wrong order are accepted, and the generated solutions lie outside. Exact arithmetic: rounding of lb + u*(ub-lb) is the subject of C161."
 },
 "C95": {
  "status": "proved",
  "note": "For every history of the operations of Model/BatchHistory.lean: views, with any positive step, agree with their source for ever (C95_views_share), batches of different origin never influence each other (C95_independent), and copies contain the selected rows (C95_copies). Device moves are not modelled."
 },
 "C96": {
  "status": "partial",
  "note": "Proved for every index except the length of the batch, which is accepted (C96_violated_one_past_the_end)."
 },
 "C97": {
  "status": "proved",
  "note": "Exact arithmetic with infinities and NaN; the ranking method is a parameter (see C19-C21); conversion to the dtype of the values is not modelled."
 },
 "C98": {
  "status": "proved",
  "note": "The evaluation of a batch is taken to be row by row (C10, C13); dtypes are only compared."
 },
 "C99": {
  "status": "partial",
  "note": "Only empty=True works; otherwise the constructor raises AttributeError (C99_violated_filled)."
 }
}