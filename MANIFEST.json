{
 "claims": [
  {
   "property": "C01",
   "status": "proved",
   "theorems": [
    "EvoTorch.CList.C01_clist_is_bounded_deque",
    "EvoTorch.CList.C01_violated_for_max_length_one",
    "EvoTorch.CList.C01_violated_by_bad_shape",
    "EvoTorch.CList.C01_full_bad_shape"
   ],
   "note": "Refinement to a bounded deque for every history with max_length >= 2, values of the declared shape and indices in [-max_length, max_length). Outside of these conditions the code departs from the deque: C01_violated_for_max_length_one, C01_violated_by_bad_shape, and C03 for larger indices. Batch shapes are the subject of C155."
  },
  {
   "property": "C02",
   "status": "proved",
   "theorems": [
    "EvoTorch.CList.C02_batch_items_isolated",
    "EvoTorch.CList.C02_failed_call_changes_nothing",
    "EvoTorch.CList.C02_violated_masked_clear"
   ],
   "note": "Every masked history refines independent deques. clear(where=...) is excluded: in the code it always raises AttributeError (C02_violated_masked_clear)."
  },
  {
   "property": "C03",
   "status": "partial",
   "theorems": [
    "EvoTorch.CList.C03_out_of_range_rejected_partial",
    "EvoTorch.CList.C03_violated"
   ],
   "note": "Indices in [-max_length, max_length) outside the current length are rejected without effect; C03_violated shows the index max_length is accepted after one append for every capacity."
  },
  {
   "property": "C04",
   "status": "partial",
   "theorems": [
    "EvoTorch.CMemory.C04_get_returns_last_write_partial",
    "EvoTorch.CMemory.C04_unselected_key_can_raise"
   ],
   "note": "All histories of masked set_ calls, any number of key coordinates and offsets; keys of unselected items must be in range (C04_unselected_key_can_raise shows the IndexError otherwise). Batch shapes are the subject of C155."
  },
  {
   "property": "C05",
   "status": "partial",
   "theorems": [
    "EvoTorch.CMemory.C05_inplace_arithmetic_partial",
    "EvoTorch.CMemory.C05_add_circular",
    "EvoTorch.CMemory.C05_bool",
    "EvoTorch.CMemory.C05_violated_multiply_unmasked",
    "EvoTorch.CMemory.C05_violated_multiply_unmasked_example",
    "EvoTorch.CMemory.C05_violated_divide_integer",
    "EvoTorch.CMemory.C05_bool_circular"
   ],
   "note": "Proved for add_, subtract_, add_circular_, masked multiply_/divide_ and boolean memories. False of the code for unmasked multiply_/divide_ (adds instead) and for divide_ on integer memories: C05_violated_*."
  },
  {
   "property": "C06",
   "status": "proved",
   "theorems": [
    "EvoTorch.CDict.C06_cdict_is_dictionary",
    "EvoTorch.CDict.C06_violated_fresh_dictionary"
   ],
   "note": "All histories after clear(). A fresh dictionary is uninitialised (C06_violated_fresh_dictionary); clear(where=...) always raises AttributeError in the code and is excluded. Batch shapes are the subject of C155."
  },
  {
   "property": "C07",
   "status": "partial",
   "theorems": [
    "EvoTorch.CBag.C07_bag_samples_without_replacement_partial",
    "EvoTorch.CBag.C07_violated_high_value_range",
    "EvoTorch.CBag.C07_violated_int16_overflow",
    "EvoTorch.CBag.C07_one_batch_dimension",
    "EvoTorch.CBag.C07_violated_batch_shape"
   ],
   "note": "Every history on a bag with one batch dimension is a trace of a multiset specification, for any noise. Guards: max_length >= 2, value range starting at or below 1, no integer overflow; both guards are necessary (C07_violated_*). With no batch dimension, or with several, no pop_ ever succeeds (C07_violated_batch_shape)."
  },
  {
   "property": "C08",
   "status": "proved",
   "theorems": [
    "EvoTorch.Workload.C08_split_workload_fair"
   ],
   "note": "All workloads and all positive actor counts."
  },
  {
   "property": "C09",
   "status": "proved",
   "theorems": [
    "EvoTorch.Workload.C09_split_partitions",
    "EvoTorch.Workload.C09_split_refusals"
   ],
   "note": "All batches, all num_pieces >= 1 and max_size >= 1. math.ceil(total / max_size) is exact in the model, floating point in the code (they agree below 2^53)."
  },
  {
   "property": "C10",
   "status": "proved",
   "theorems": [
    "EvoTorch.Workload.C10_parallel_evaluation_schedule_independent",
    "EvoTorch.Workload.C10_parallel_evaluation_rows_in_order",
    "EvoTorch.Workload.C10_evaluate_all_eq_sequential"
   ],
   "note": "Every split, every completion order; also for arbitrary per-actor evaluators (rows in order). Transport of data by ray is trusted to be faithful."
  },
  {
   "property": "C11",
   "status": "partial",
   "theorems": [
    "EvoTorch.BestWorst.C11_best_worst_partial",
    "EvoTorch.BestWorst.C11_best_worst_exact_without_nan",
    "EvoTorch.BestWorst.C11_never_worsens",
    "EvoTorch.BestWorst.C11_best_present",
    "EvoTorch.BestWorst.C11_violated_by_nan",
    "EvoTorch.BestWorst.C11_violated_witness",
    "EvoTorch.BestWorst.C11_first_batch_with_nan_raises",
    "EvoTorch.BestWorst.C11_first_batch_raises_iff"
   ],
   "note": "Exact for every history without NaN; for histories with NaN the stored extreme is exact w.r.t. the NaN-free batches and never worsens. False for solutions sharing a batch with a NaN evaluation (C11_violated_by_nan, C11_violated_witness), and the first evaluation of a batch with a NaN raises AttributeError."
  },
  {
   "property": "C12",
   "status": "proved",
   "theorems": [
    "EvoTorch.BestWorst.C12_comparison_strict_order",
    "EvoTorch.BestWorst.C12_trichotomy"
   ],
   "note": "Exact finite arithmetic with IEEE infinities and NaN."
  },
  {
   "property": "C13",
   "status": "partial",
   "theorems": [
    "EvoTorch.BatchHistory.C13_evaluations_never_stale_partial",
    "EvoTorch.BatchHistory.C13_evaluate_exact",
    "EvoTorch.BatchHistory.C13_violated_by_keep_evals",
    "EvoTorch.BatchHistory.C13_violated_by_failed_set_values",
    "EvoTorch.BatchHistory.C13_violated_by_kept_tensor",
    "EvoTorch.BatchHistory.C13_refused_set_values"
   ],
   "note": "All legal histories incl. views (also strided) and copies. Outside of Legal: documented-unsafe keep_evals writes, writes into a tensor kept from an earlier access_values after the batch has been evaluated again, and set_values on object batches failing midway (C13_violated_*)."
  },
  {
   "property": "C14",
   "status": "proved",
   "theorems": [
    "EvoTorch.SetEvals.C14_set_evals_exact"
   ],
   "note": "All shapes; selections are distinct in-range rows."
  },
  {
   "property": "C15",
   "status": "proved",
   "theorems": [
    "EvoTorch.Selection.C15_argsort_and_take_best",
    "EvoTorch.Selection.C15_argbest_argworst"
   ],
   "note": "For every sorting permutation (ties open) and every argmin/argmax oracle. Evaluations in a linear order (NaN not considered here; see C11)."
  },
  {
   "property": "C16",
   "status": "proved",
   "theorems": [
    "EvoTorch.Selection.C16_pareto_ranks",
    "EvoTorch.Selection.C16_ranking_terminates",
    "EvoTorch.Selection.C16_pareto_fronts"
   ],
   "note": "Ranks are exactly the iterated non-dominated fronts, and the while loop terminates."
  },
  {
   "property": "C17",
   "status": "proved",
   "theorems": [
    "EvoTorch.Selection.C17_take_best_respects_fronts"
   ],
   "note": "Exact arithmetic for the combined key rank + 0.1*crowd/n."
  },
  {
   "property": "C18",
   "status": "partial",
   "theorems": [
    "EvoTorch.Selection.C18_pareto_sort_fronts_by_crowding_partial",
    "EvoTorch.Selection.C18_violated"
   ],
   "note": "pareto_sort orders each front by descending crowding distance (proved). take_best does not: it uses the argsort permutation as if it were ranks; C18_violated gives a witness."
  },
  {
   "property": "C19",
   "status": "proved",
   "theorems": [
    "EvoTorch.Ranking.C19_centered",
    "EvoTorch.Ranking.C19_linear"
   ],
   "note": "n >= 2, exact arithmetic. For n = 1 the code divides 0 by 0 and yields NaN (outside the statement)."
  },
  {
   "property": "C20",
   "status": "proved",
   "theorems": [
    "EvoTorch.Ranking.C20_nes"
   ],
   "note": "Over the reals, exact logarithms."
  },
  {
   "property": "C21",
   "status": "proved",
   "theorems": [
    "EvoTorch.Ranking.C21_raw",
    "EvoTorch.Ranking.C21_normalized"
   ],
   "note": "Over the reals, exact square root."
  },
  {
   "property": "C22",
   "status": "proved",
   "theorems": [
    "EvoTorch.GA.C22_population_size",
    "EvoTorch.GA.C22_keeps_the_best_candidates",
    "EvoTorch.GA.C22_best_never_worsens"
   ],
   "note": "Single objective for elitism; operators are arbitrary functions of the batch; deterministic fitness for elitism as in the statement."
  },
  {
   "property": "C23",
   "status": "partial",
   "theorems": [
    "EvoTorch.GA.C23_keeps_best_parents_partial",
    "EvoTorch.GA.C23_violated"
   ],
   "note": "Proved for re_evaluate=False or re_evaluate_parents_first=True. Violated for re_evaluate=True, re_evaluate_parents_first=False: the step takes parents from the unevaluated population object (C23_violated)."
  },
  {
   "property": "C24",
   "status": "proved",
   "theorems": [
    "EvoTorch.GA.C24_use_protocol",
    "EvoTorch.GA.C24_failed_use_changes_nothing"
   ],
   "note": "Refinement to a registry automaton over all call sequences."
  },
  {
   "property": "C25",
   "status": "proved",
   "theorems": [
    "EvoTorch.GA.C25_population_size",
    "EvoTorch.GA.C25_best_never_worsens"
   ],
   "note": "Breeding is an arbitrary function; permutation preserves the number of solutions."
  },
  {
   "property": "C26",
   "status": "partial",
   "theorems": [
    "EvoTorch.Operators.C26_gaussian_mutation",
    "EvoTorch.Operators.C26_sbx",
    "EvoTorch.Operators.C26_polynomial_mutation_partial",
    "EvoTorch.Operators.C26_violated_polynomial"
   ],
   "note": "Gaussian mutation and SBX in full; polynomial mutation for lower_bound < upper_bound. A gene with lower_bound = upper_bound is accepted by the constructor and becomes NaN (C26_violated_polynomial)."
  },
  {
   "property": "C27",
   "status": "proved",
   "theorems": [
    "EvoTorch.Operators.C27_multi_point",
    "EvoTorch.Operators.C27_one_point"
   ],
   "note": "multi-, two- and one-point cross-over for all parents and draws"
  },
  {
   "property": "C28",
   "status": "proved",
   "theorems": [
    "EvoTorch.Operators.C28_num_tournaments",
    "EvoTorch.Operators.C28_children_count"
   ],
   "note": "number of tournaments and of children; exact arithmetic for rate * popsize"
  },
  {
   "property": "C29",
   "status": "proved",
   "theorems": [
    "EvoTorch.Operators.C29_single_objective",
    "EvoTorch.Operators.C29_multi_objective",
    "EvoTorch.Operators.C29_winner_not_dominated"
   ],
   "note": "argmax is a parameter with its documented contract"
  },
  {
   "property": "C30",
   "status": "proved",
   "theorems": [
    "EvoTorch.Operators.C30_sbx_mean"
   ],
   "note": "over the reals, before clipping"
  },
  {
   "property": "C31",
   "status": "proved",
   "theorems": [
    "EvoTorch.Operators.C31_cosyne_column"
   ],
   "note": "per column; draws below 1 (torch.rand)"
  },
  {
   "property": "C32",
   "status": "proved",
   "theorems": [
    "EvoTorch.Operators.C32_cut_and_splice"
   ],
   "note": "all cut points in range"
  },
  {
   "property": "C33",
   "status": "proved",
   "theorems": [
    "EvoTorch.MapElites.C33_archive_not_reevaluated",
    "EvoTorch.MapElites.C33_archive_reevaluated",
    "EvoTorch.MapElites.C33_elites_kept",
    "EvoTorch.MapElites.C33_best_of_candidates"
   ],
   "note": "deterministic finite fitness (the property's hypothesis); argmin/argmax parameters with their contract; features may be infinite or NaN"
  },
  {
   "property": "C34",
   "status": "proved",
   "theorems": [
    "EvoTorch.MapElites.C34_bins",
    "EvoTorch.MapElites.C34_grid_size",
    "EvoTorch.MapElites.C34_grid_covers",
    "EvoTorch.MapElites.C34_exactly_one_cell"
   ],
   "note": "exact arithmetic; cover holds for any bounds, uniqueness for lower <= upper"
  },
  {
   "property": "C35",
   "status": "partial",
   "theorems": [
    "EvoTorch.ObjectArray.C35_views_share",
    "EvoTorch.ObjectArray.C35_read_only_view_shares",
    "EvoTorch.ObjectArray.C35_write",
    "EvoTorch.ObjectArray.C35_write_many",
    "EvoTorch.ObjectArray.C35_write_from",
    "EvoTorch.ObjectArray.C35_no_other_effect",
    "EvoTorch.ObjectArray.C35_clone_independent",
    "EvoTorch.ObjectArray.C35_no_interference",
    "EvoTorch.ObjectArray.C35_read_only",
    "EvoTorch.ObjectArray.C35_violated_overlapping_assignment"
   ],
   "note": "views, clones, read-only arrays and writes for all histories. Missing: an assignment whose right-hand side overlaps its target smears values (C35_violated_overlapping_assignment); clone(preserve_read_only=True) of a read-only array is writable (modelled so; a clone is not derived by indexing)."
  },
  {
   "property": "C36",
   "status": "partial",
   "theorems": [
    "EvoTorch.Heap.C36_as_immutable",
    "EvoTorch.Heap.C36_roundtrip_partial",
    "EvoTorch.Heap.C36_violated_tuple",
    "EvoTorch.Heap.C36_violated_set_of_tuples",
    "EvoTorch.Heap.C36_mutable_copy_refused"
   ],
   "note": "as_immutable proved for all object graphs in which sets hold atoms; the round trip is proved up to tuples coming back as lists. Violations proved: tuples come back as lists, as_immutable of a set of tuples raises TypeError."
  },
  {
   "property": "C37",
   "status": "proved",
   "theorems": [
    "EvoTorch.Heap.C37_deep_clone",
    "EvoTorch.Heap.C37_independent",
    "EvoTorch.Heap.C37_tuple_cycle_not_preserved"
   ],
   "note": "All finite graphs of lists, dicts, sets, tuples, tensors and immutable containers in which no cycle passes through a tuple; for tuple cycles (outside the statement) the clone is shown to differ."
  },
  {
   "property": "C38",
   "status": "proved",
   "theorems": [
    "EvoTorch.Hook.C38_calls",
    "EvoTorch.Hook.C38_dicts",
    "EvoTorch.Hook.C38_lists",
    "EvoTorch.Hook.C38_mixing",
    "EvoTorch.Hook.C38_accumulate"
   ],
   "note": ""
  },
  {
   "property": "C39",
   "status": "proved",
   "theorems": [
    "EvoTorch.Status.C39_at_most_once",
    "EvoTorch.Status.C39_nothing_from_before",
    "EvoTorch.Status.C39_never_stale",
    "EvoTorch.Status.C39_mid_step_read_stays"
   ],
   "note": "Getters may read other status keys (well-founded). A value read in the middle of the algorithm's own step stays for that step (C39_mid_step_read_stays)."
  },
  {
   "property": "C40",
   "status": "proved",
   "theorems": [
    "EvoTorch.Searcher.C40_run",
    "EvoTorch.Searcher.C40_run_exception",
    "EvoTorch.Searcher.C40_status_after_step"
   ],
   "note": "Hooks fixed during a run; also what happens when something raises, and what the status holds after a step."
  },
  {
   "property": "C41",
   "status": "proved",
   "theorems": [
    "EvoTorch.Restart.C41_num_restarts",
    "EvoTorch.Restart.C41_step",
    "EvoTorch.Restart.C41_ipop",
    "EvoTorch.Restart.C41_ipop_detect"
   ],
   "note": "Exact arithmetic for the multiplication of the population size."
  },
  {
   "property": "C42",
   "status": "proved",
   "theorems": [
    "EvoTorch.Logger.C42_interval",
    "EvoTorch.Logger.C42_steps",
    "EvoTorch.Logger.C42_zero_interval"
   ],
   "note": "All non-zero intervals; interval 0 raises ZeroDivisionError at the first step."
  },
  {
   "property": "C43",
   "status": "proved",
   "theorems": [
    "EvoTorch.Logger.C43_saved_once",
    "EvoTorch.Logger.C43_last_is_saved",
    "EvoTorch.Logger.C43_zero_interval"
   ],
   "note": "File writing taken to succeed; explicit calls of save() by the user excluded."
  },
  {
   "property": "C44",
   "status": "proved",
   "theorems": [
    "EvoTorch.Modify.C44_modify_tensor",
    "EvoTorch.Modify.C44_lower_bound_yields",
    "EvoTorch.Modify.C44_shape_mismatch"
   ],
   "note": "C44_modify_tensor: for all finite tensors, scalar/tensor/absent limits and finite max_change; closest allowed value, upper bound always honoured, in_place behaviour. C44_lower_bound_yields documents that lb can lose against max_change; C44_shape_mismatch the IndexError."
  },
  {
   "property": "C45",
   "status": "proved",
   "theorems": [
    "EvoTorch.Modify.C45_stdev_within_limits",
    "EvoTorch.Modify.C45_stdev_stays_positive",
    "EvoTorch.Modify.C45_uncontrolled_can_be_negative"
   ],
   "note": "For both update rules (additive, multiplicative) and every gradient sequence, by induction over the run. Assumes a finite non-negative stdev_max_change and finite (non-overflowing) targets."
  },
  {
   "property": "C46",
   "status": "partial",
   "theorems": [
    "EvoTorch.Modify.C46_modify_vector_partial",
    "EvoTorch.Modify.C46_single_bound_refused",
    "EvoTorch.Modify.C46_tell_history_partial",
    "EvoTorch.Modify.C46_violated_zero_stdev"
   ],
   "note": "C46_modify_vector_partial and C46_tell_history_partial cover every call and history except an infinite stdev_max_change (the CEM default) with an element of the old stdev equal to 0; C46_violated_zero_stdev proves that the code then returns NaN (0*inf)."
  },
  {
   "property": "C47",
   "status": "proved",
   "theorems": [
    "EvoTorch.CMAES.C47_cmaes_separable_sigma_positive",
    "EvoTorch.CMAES.C47_cmaes_sigma_positive",
    "EvoTorch.ExpGaussian.C47_snes_stays_positive",
    "EvoTorch.ExpGaussian.C47_snes_with_limits"
   ],
   "note": "SNES with and without limits, CMA-ES separable and not."
  },
  {
   "property": "C48",
   "status": "proved",
   "theorems": [
    "EvoTorch.ExpGaussian.C48_inverse_exact",
    "EvoTorch.ExpGaussian.C48_optimizer_unusable"
   ],
   "note": "Real arithmetic. Also proved: with an optimizer for the center, XNES raises KeyError at its first update."
  },
  {
   "property": "C49",
   "status": "proved",
   "theorems": [
    "EvoTorch.Distribution.C49_make_gaussian_symmetric",
    "EvoTorch.Distribution.C49_functional_sample_symmetric"
   ],
   "note": "Both make_gaussian(symmetric=True) and the functional sampler; draws are arguments."
  },
  {
   "property": "C50",
   "status": "proved",
   "theorems": [
    "EvoTorch.Distribution.C50_symmetric_gradient",
    "EvoTorch.Distribution.C50_parts"
   ],
   "note": "Over any field of characteristic zero."
  },
  {
   "property": "C51",
   "status": "proved",
   "theorems": [
    "EvoTorch.Distribution.C51_cem_update",
    "EvoTorch.Distribution.C51_single_elite_has_no_deviation"
   ],
   "note": "Also proved: with a single elite the standard deviation is undefined (torch gives NaN)."
  },
  {
   "property": "C52",
   "status": "proved",
   "theorems": [
    "EvoTorch.Optimizers.C52_class",
    "EvoTorch.Optimizers.C52_functional",
    "EvoTorch.Optimizers.C52_zero_gradient"
   ],
   "note": "Class (with parameter-group assignments in the history) and functional optimiser; real arithmetic with an explicit all-NaN vector. Also proved: one zero gradient makes every later step NaN."
  },
  {
   "property": "C53",
   "status": "proved",
   "theorems": [
    "EvoTorch.Optimizers.C53_clipup",
    "EvoTorch.Optimizers.C53_sgd",
    "EvoTorch.Optimizers.C53_adam",
    "EvoTorch.Optimizers.C53_clipup_defaults"
   ],
   "note": "ClipUp, SGD and also Adam; torch.optim's SGD and Adam are modelled from their documented update rules."
  },
  {
   "property": "C54",
   "status": "partial",
   "theorems": [
    "EvoTorch.Optimizers.C54_param_group_partial",
    "EvoTorch.Optimizers.C54_violated"
   ],
   "note": "Violated by the code: __setitem__ tests the attribute name instead of the key, so no value is ever refused (C54_violated). Key checks and creation checks proved."
  },
  {
   "property": "C55",
   "status": "proved",
   "theorems": [
    "EvoTorch.GradSampling.C55_weighted_average",
    "EvoTorch.GradSampling.C55_pooled"
   ],
   "note": "Exact arithmetic; any field of characteristic zero. C55_pooled adds that mean gradients combine to the pooled mean."
  },
  {
   "property": "C56",
   "status": "proved",
   "theorems": [
    "EvoTorch.GradSampling.C56_adaptive_step",
    "EvoTorch.GradSampling.C56_no_counter",
    "EvoTorch.GradSampling.C56_actors_agree"
   ],
   "note": "Includes termination exactly when the condition is met, and the KeyError for problems without an interaction counter. The actors' loop is proved to agree."
  },
  {
   "property": "C57",
   "status": "proved",
   "theorems": [
    "EvoTorch.RunningNorm.C57_running_stats_are_batch_stats",
    "EvoTorch.RunningNorm.C57_order_and_grouping_irrelevant",
    "EvoTorch.RunningNorm.C57_normalize",
    "EvoTorch.RunningNorm.C57_refusals",
    "EvoTorch.RunningNorm.C57_running_stat"
   ],
   "note": "For every well-formed history (single, batch, masked, merged, reset; exact arithmetic): count, mean, variance (clamped), normalisation; order/grouping irrelevance; RunningStat wrapper. Histories where a batch with nothing in it is the first thing seen are excluded (see C58)."
  },
  {
   "property": "C58",
   "status": "partial",
   "theorems": [
    "EvoTorch.RunningNorm.C58_masked_update_partial",
    "EvoTorch.RunningNorm.C58_all_false_mask_partial",
    "EvoTorch.RunningNorm.C58_violated_masked_nan",
    "EvoTorch.RunningNorm.C58_violated_all_false_mask"
   ],
   "note": "Proved for finite rows when the mask selects something or data exists. Violated: NaN/inf in a masked-out row pollutes the sums; an all-False mask (or empty batch) first leaves the object unusable."
  },
  {
   "property": "C59",
   "status": "partial",
   "theorems": [
    "EvoTorch.ObsSync.C59_sync_partial",
    "EvoTorch.ObsSync.C59_actors_start_with_all_partial",
    "EvoTorch.ObsSync.C59_violated_run",
    "EvoTorch.ObsSync.C59_violated_run_after",
    "EvoTorch.ObsSync.C59_violated_idle_actor",
    "EvoTorch.ObsSync.C59_violated_kill",
    "EvoTorch.ObsSync.C59_violated_kill_after_pickle"
   ],
   "note": "Proved for every history of evaluations, pickling and cloning (going on with the original or with the copy), any scheduler and any number of actors (GymNE; VecGymNE when every actor gets work in each evaluation). Violated: run(update_stats=True) on the main problem is multiplied or lost; an idle VecGymNE actor makes the evaluation fail; after kill_actors the counters so far are multiplied by the number of actors, or, if the problem was pickled before, fall back to those of that time."
  },
  {
   "property": "C60",
   "status": "proved",
   "theorems": [
    "EvoTorch.ExpectsNdim.C60_batched",
    "EvoTorch.ExpectsNdim.C60_mismatch",
    "EvoTorch.ExpectsNdim.C60_too_few_dimensions",
    "EvoTorch.ExpectsNdim.C60_rowwise",
    "EvoTorch.ExpectsNdim.C60_numbers",
    "EvoTorch.ExpectsNdim.C60_extra_arguments_dropped",
    "EvoTorch.ExpectsNdim.C60_scalar_refused"
   ],
   "note": "The batch dimensions must agree exactly where they overlap (vmap semantics: a size of 1 is not stretched, it raises ValueError), which C60_mismatch states. Functions which raise or use random numbers and empty batch dimensions in the mismatch case are outside the model. Observations: surplus positional arguments are silently dropped; a misspelt variable lets tensors declared as None decide the dtype of numbers (C60_scalar_refused)."
  },
  {
   "property": "C61",
   "status": "partial",
   "theorems": [
    "EvoTorch.NetParser.C61_pipeline_partial",
    "EvoTorch.NetParser.C61_flat_partial",
    "EvoTorch.NetParser.C61_unsupported_partial",
    "EvoTorch.NetParser.C61_violated_dotted_name",
    "EvoTorch.NetParser.C61_violated_repeated_keyword"
   ],
   "note": "The input is the syntax tree given by Python's parser. Proved: the flat pipeline in the written order for every parenthesization, class lookup (EvoTorch's layers first), arguments, constants and indexed constants; NetParsingError for every unsupported or unknown part provided calls are by plain names. Missing: a call by a dotted name raises AttributeError (C61_violated_dotted_name), and a keyword given twice is accepted (C61_violated_repeated_keyword)."
  },
  {
   "property": "C62",
   "status": "proved",
   "theorems": [
    "EvoTorch.NetParams.C62_fill_round_trip",
    "EvoTorch.NetParams.C62_wrong_length",
    "EvoTorch.NetParams.C62_fill_own",
    "EvoTorch.NetParams.C62_functional",
    "EvoTorch.NetParams.C62_refused_fill_modifies"
   ],
   "note": "Networks are lists of named tensors in parameter order; what the network computes is an arbitrary function; devices and dtypes not modelled. parameter_vector of a network without parameters raises (torch.cat of nothing). C62_refused_fill_modifies shows that a refused fill_parameters has already overwritten parameters."
  },
  {
   "property": "C63",
   "status": "proved",
   "theorems": [
    "EvoTorch.Recurrent.C63_multilayered",
    "EvoTorch.Recurrent.C63_multilayered_step",
    "EvoTorch.Recurrent.C63_stateful",
    "EvoTorch.Recurrent.C63_reset",
    "EvoTorch.Recurrent.C63_history"
   ],
   "note": "Layers are arbitrary functions of input and optional state; outcomes include exceptions. C63_stateful assumes that the wrapped module returns tensors or tuples (as documented)."
  },
  {
   "property": "C64",
   "status": "proved",
   "theorems": [
    "EvoTorch.Episodes.C64_first_episodes",
    "EvoTorch.Episodes.C64_no_early_end",
    "EvoTorch.Episodes.C64_gym_rollout",
    "EvoTorch.Episodes.C64_no_episodes"
   ],
   "note": "All traces, any number of environments and solutions, num_episodes >= 1, schedules with t0 <= t1, exact arithmetic. Also GymNE rollouts with episode_length."
  },
  {
   "property": "C65",
   "status": "proved",
   "theorems": [
    "EvoTorch.Episodes.C65_bonus",
    "EvoTorch.Episodes.C65_any_schedule",
    "EvoTorch.Episodes.C65_wrapper_history",
    "EvoTorch.Episodes.C65_arguments",
    "EvoTorch.Episodes.C65_gym_and_vec_agree"
   ],
   "note": "Per-step bonus equals the specification for t0 <= t1 in both implementations; agreement for every schedule; GymNE.run equals VecGymNE fitness on the same episodes."
  },
  {
   "property": "C66",
   "status": "partial",
   "theorems": [
    "EvoTorch.SupervisedNE.C66_cyclic",
    "EvoTorch.SupervisedNE.C66_pass_position",
    "EvoTorch.SupervisedNE.C66_common_partial",
    "EvoTorch.SupervisedNE.C66_separate",
    "EvoTorch.SupervisedNE.C66_empty_loader",
    "EvoTorch.SupervisedNE.C66_actors_partial",
    "EvoTorch.SupervisedNE.C66_violated_actors"
   ],
   "note": "Cyclic requests, separate minibatches and the average are proved for every loader and history; common minibatches without actors. With actors each actor has its own loader, and C66_violated_actors shows that identical networks then get different losses in one evaluation."
  },
  {
   "property": "C67",
   "status": "proved",
   "theorems": [
    "EvoTorch.Constraints.C67_violation",
    "EvoTorch.Constraints.C67_unknown_operator",
    "EvoTorch.Constraints.C67_penalty",
    "EvoTorch.Constraints.C67_log_barrier",
    "EvoTorch.Constraints.C67_log_barrier_infinite",
    "EvoTorch.Constraints.C67_equal_infinities_counterexample",
    "EvoTorch.Constraints.C67_infinite_violation_counterexample",
    "EvoTorch.Constraints.C67_exponent_zero_counterexample"
   ],
   "note": "Exact real arithmetic; finite operands, non-negative multipliers, positive exponent. The counterexample theorems show what happens outside: inf <= inf has a NaN violation, an infinite violation with linear = 0 gives a NaN penalty, exp = 0 penalises satisfied constraints."
  },
  {
   "property": "C68",
   "status": "proved",
   "theorems": [
    "EvoTorch.Workload.C68_actor_seeds_distinct"
   ],
   "note": "For 4*num_actors <= 2^32. An actor whose problem owns a generator calls Problem.seed, which does not exist: see C167_violated_actors."
  },
  {
   "property": "C69",
   "status": "partial",
   "theorems": [
    "EvoTorch.RandomTensors.C69_in_range_partial",
    "EvoTorch.RandomTensors.C69_reachable_partial",
    "EvoTorch.RandomTensors.C69_no_bounds",
    "EvoTorch.RandomTensors.C69_randint",
    "EvoTorch.RandomTensors.C69_bool",
    "EvoTorch.RandomTensors.C69_float",
    "EvoTorch.RandomTensors.C69_one_bound",
    "EvoTorch.RandomTensors.C69_violated_full_range",
    "EvoTorch.RandomTensors.C69_violated_out_of_range",
    "EvoTorch.RandomTensors.C69_violated_unreachable"
   ],
   "note": "Membership proved whenever ub-lb+1 fits in the dtype, reachability whenever also lb >= 0 or ub-2*lb fits; make_randint, bool and float dtypes proved in full. The arithmetic is done in the dtype of the result: the C69_violated theorems show a RuntimeError for the full range, out-of-range values for int8 [-100,100] and an unreachable value for int8 [-100,0]."
  },
  {
   "property": "C70",
   "status": "partial",
   "theorems": [
    "EvoTorch.Workload.C70_obj_index_partial",
    "EvoTorch.Workload.C70_refused_partial",
    "EvoTorch.Workload.C70_violated"
   ],
   "note": "Exact for Problem.normalize_obj_index and row indices; SolutionBatch accepts the value m (C70_violated)."
  },
  {
   "property": "C71",
   "status": "partial",
   "theorems": [
    "EvoTorch.CMAES.C71_center_is_convex_combination_partial",
    "EvoTorch.CMAES.C71_default_rates",
    "EvoTorch.CMAES.C71_violated_separable_recombines_the_worst"
   ],
   "note": "Proved for non-active options and for learning rates with c_1 + c_mu <= 1, which the defaults of the non-separable variant satisfy in every dimension. Violated by the defaults of the separable variant for large populations: c_mu > 1 makes the weights of the worst solutions positive."
  },
  {
   "property": "C72",
   "status": "partial",
   "theorems": [
    "EvoTorch.CMAES.C72_stdevs_within_limits_partial",
    "EvoTorch.CMAES.C72_separable_stdevs_within_limits_partial",
    "EvoTorch.CMAES.C72_violated_limits_break_covariance"
   ],
   "note": "The range is proved for both variants and the separable variances stay positive (C82). Violated: the non-separable variant limits only the diagonal, and the covariance stops being decomposable."
  },
  {
   "property": "C73",
   "status": "partial",
   "theorems": [
    "EvoTorch.ReadOnly.C73_result_class",
    "EvoTorch.ReadOnly.C73_in_place_refused",
    "EvoTorch.ReadOnly.C73_sealed_partial",
    "EvoTorch.ReadOnly.C73_derived",
    "EvoTorch.ReadOnly.C73_clone",
    "EvoTorch.ReadOnly.C73_violated_out_tuple",
    "EvoTorch.ReadOnly.C73_violated_through_numpy",
    "EvoTorch.ReadOnly.C73_violated_cast"
   ],
   "note": "Proved for every history of method calls by name, operators, item assignments, single out= arguments, clones, numpy views; torch's naming convention for mutating methods is a hypothesis. The C73_violated theorems show the loopholes: a tuple given as out=, a tensor made from the numpy view, an explicit cast."
  },
  {
   "property": "C74",
   "status": "proved",
   "theorems": [
    "EvoTorch.GradSampling.C74_sizes_add_up",
    "EvoTorch.GradSampling.C74_shares"
   ],
   "note": ""
  },
  {
   "property": "C75",
   "status": "partial",
   "theorems": [
    "EvoTorch.GradSampling.C75_even_sizes_partial",
    "EvoTorch.GradSampling.C75_violated"
   ],
   "note": "Even sizes and thresholds proved; the documented refusal of an odd popsize without actors is not implemented (C75_violated)."
  },
  {
   "property": "C76",
   "status": "proved",
   "theorems": [
    "EvoTorch.Selection.C76_crowding_distance_nsga2"
   ],
   "note": "Exact arithmetic; distances in an extended field with +inf."
  },
  {
   "property": "C77",
   "status": "partial",
   "theorems": [
    "EvoTorch.ExpGaussian.C77_cov_partial",
    "EvoTorch.ExpGaussian.C77_violated"
   ],
   "note": "Violated by the code: cov returns the transposed product. C77_violated is a reachable witness; C77_cov_partial says exactly when it is right."
  },
  {
   "property": "C78",
   "status": "proved",
   "theorems": [
    "EvoTorch.ExpGaussian.C78_relative_entropy"
   ],
   "note": "Real arithmetic."
  },
  {
   "property": "C79",
   "status": "proved",
   "theorems": [
    "EvoTorch.Optimizers.C79_initial_stdev"
   ],
   "note": "Unbatched centers."
  },
  {
   "property": "C80",
   "status": "partial",
   "theorems": [
    "EvoTorch.GradSampling.C80_vector_gradients_partial",
    "EvoTorch.GradSampling.C80_violated_matrix_gradient"
   ],
   "note": "Violated by XNES: its matrix gradient is added in place to a vector of zeros (C80_violated_matrix_gradient)."
  },
  {
   "property": "C81",
   "status": "partial",
   "theorems": [
    "EvoTorch.GradSampling.C81_mean_eval_partial",
    "EvoTorch.GradSampling.C81_violated_empty_share"
   ],
   "note": "Violated when there are more actors than solutions: an empty share makes mean_eval NaN (C81_violated_empty_share)."
  },
  {
   "property": "C82",
   "status": "partial",
   "theorems": [
    "EvoTorch.CMAES.C82_covariance_stays_positive_definite_partial",
    "EvoTorch.CMAES.C82_separable_variances_stay_positive_partial",
    "EvoTorch.CMAES.C82_violated_separable_negative_variance"
   ],
   "note": "Proved for c_1 + c_mu < 1, without limits in the non-separable variant, with a decomposition at every step. Violated by the default separable learning rates for large populations and by the stdev limits (C72)."
  },
  {
   "property": "C83",
   "status": "partial",
   "theorems": [
    "EvoTorch.CMAES.C83_init_with_rates_partial",
    "EvoTorch.CMAES.C83_violated_python_rates"
   ],
   "note": "Violated: c_1 or c_mu given as a number is an AttributeError unless limit_C_decomposition=False."
  },
  {
   "property": "C84",
   "status": "partial",
   "theorems": [
    "EvoTorch.RunningNorm.C84_batches_isolated_partial",
    "EvoTorch.RunningNorm.C84_violated"
   ],
   "note": "Proved for batches. Violated for a first single observation: the tensor is kept as the sum and modified in place by the next update."
  },
  {
   "property": "C85",
   "status": "proved",
   "theorems": [
    "EvoTorch.SyncVec.C85_independent",
    "EvoTorch.SyncVec.C85_like_alone",
    "EvoTorch.SyncVec.C85_wrong_size"
   ],
   "note": "For every state machine as sub-environment, every action sequence and every num_episodes. Not modelled: info dictionaries, seeds, devices. (The code also resets after the n-th episode, although the documentation promises n-1 automatic resets; this is not visible in the reports.)"
  },
  {
   "property": "C86",
   "status": "partial",
   "theorems": [
    "EvoTorch.SyncVec.C86_accepted_partial",
    "EvoTorch.SyncVec.C86_equal_accepted_partial",
    "EvoTorch.SyncVec.C86_refused",
    "EvoTorch.SyncVec.C86_violated_action_shape",
    "EvoTorch.SyncVec.C86_violated_observations",
    "EvoTorch.SyncVec.C86_violated_gymne"
   ],
   "note": "Proved: what SyncVectorEnv accepts has supported first spaces, equal observation shapes, equal action kinds and equal numbers of discrete actions. Violated: box action shapes are never compared; GymNE's check never looks at the action space."
  },
  {
   "property": "C87",
   "status": "proved",
   "theorems": [
    "EvoTorch.RandomTensors.C87_symmetric",
    "EvoTorch.RandomTensors.C87_cases"
   ],
   "note": "Exact arithmetic; the draws of normal_ are arguments; center and stdev already broadcast."
  },
  {
   "property": "C88",
   "status": "proved",
   "theorems": [
    "EvoTorch.Layers.C88_clip",
    "EvoTorch.Layers.C88_bin",
    "EvoTorch.Layers.C88_round",
    "EvoTorch.Layers.C88_slice",
    "EvoTorch.Layers.C88_slice_all",
    "EvoTorch.Layers.C88_apply"
   ],
   "note": "Exact arithmetic. Bin with equal bounds divides by zero and is excluded."
  },
  {
   "property": "C89",
   "status": "proved",
   "theorems": [
    "EvoTorch.Layers.C89_rnn",
    "EvoTorch.Layers.C89_lstm",
    "EvoTorch.Layers.C89_lstm_bounded"
   ],
   "note": "Activation functions are parameters; the bounds assume gates in [0,1] and tanh in [-1,1]."
  },
  {
   "property": "C90",
   "status": "proved",
   "theorems": [
    "EvoTorch.Layers.C90_feed_forward",
    "EvoTorch.Layers.C90_refused",
    "EvoTorch.Layers.C90_structured_control"
   ],
   "note": "Attribute names built from decimal numbers are proved distinct; parameters are arbitrary."
  },
  {
   "property": "C91",
   "status": "proved",
   "theorems": [
    "EvoTorch.Layers.C91_locomotor"
   ],
   "note": "By induction over the history."
  },
  {
   "property": "C92",
   "status": "partial",
   "theorems": [
    "EvoTorch.ProblemConfig.C92_senses_refused",
    "EvoTorch.ProblemConfig.C92_vectorized_refused",
    "EvoTorch.ProblemConfig.C92_accepted_iff_partial",
    "EvoTorch.ProblemConfig.C92_completed",
    "EvoTorch.ProblemConfig.C92_sequence_validated",
    "EvoTorch.ProblemConfig.C92_violated_single_sense",
    "EvoTorch.ProblemConfig.C92_violated_eval_dtype"
   ],
   "note": "Acceptance is characterised exactly (C92_accepted_iff_partial) and the resulting attributes are given for every accepted configuration. Violated: a single objective sense that is neither 'min' nor 'max' is accepted (only sequences are validated), and so is an integer eval_dtype. Dtype aliases are the subject of C131; seeds, hooks and log messages are not modelled here."
  },
  {
   "property": "C93",
   "status": "partial",
   "theorems": [
    "EvoTorch.ProblemConfig.C93_settled",
    "EvoTorch.ProblemConfig.C93_counts",
    "EvoTorch.ProblemConfig.C93_num_gpus",
    "EvoTorch.ProblemConfig.C93_num_devices",
    "EvoTorch.ProblemConfig.C93_conflicts",
    "EvoTorch.ProblemConfig.C93_share_all",
    "EvoTorch.ProblemConfig.C93_violated_num_devices_on_gpu",
    "EvoTorch.ProblemConfig.C93_violated_share_among_none"
   ],
   "note": "Proved for every cluster and request with the cpu as main device, with exact arithmetic. Violated: 'num_devices' with a GPU as main device raises TypeError instead of creating no actors; 'max' GPUs per actor without actors divides by zero."
  },
  {
   "property": "C94",
   "status": "partial",
   "theorems": [
    "EvoTorch.ProblemConfig.C94_within_initial_bounds_partial",
    "EvoTorch.ProblemConfig.C94_needs_bounds",
    "EvoTorch.ProblemConfig.C94_unevaluated",
    "EvoTorch.ProblemConfig.C94_arguments",
    "EvoTorch.ProblemConfig.C94_gaussian",
    "EvoTorch.ProblemConfig.C94_integers_partial",
    "EvoTorch.ProblemConfig.C94_violated_outside_bounds",
    "EvoTorch.ProblemConfig.C94_violated_reversed_bounds"
   ],
   "note": "Proved for every draw, for ordered bounds (and, for integer dtypes, ranges that fit the dtype, see C69). Violated for the strict bounds: initial bounds outside of the bounds and bounds in the wrong order are accepted, and the generated solutions lie outside. Exact arithmetic: rounding of lb + u*(ub-lb) is the subject of C161."
  },
  {
   "property": "C95",
   "status": "proved",
   "theorems": [
    "EvoTorch.BatchHistory.C95_independent",
    "EvoTorch.BatchHistory.C95_views_share",
    "EvoTorch.BatchHistory.C95_copies"
   ],
   "note": "For every history of the operations of Model/BatchHistory.lean: views, with any positive step, agree with their source for ever (C95_views_share), batches of different origin never influence each other (C95_independent), and copies contain the selected rows (C95_copies). Device moves are not modelled."
  },
  {
   "property": "C96",
   "status": "partial",
   "theorems": [
    "EvoTorch.BatchAccess.C96_index_partial",
    "EvoTorch.BatchAccess.C96_iteration",
    "EvoTorch.BatchAccess.C96_violated_one_past_the_end"
   ],
   "note": "Proved for every index except the length of the batch, which is accepted (C96_violated_one_past_the_end)."
  },
  {
   "property": "C97",
   "status": "proved",
   "theorems": [
    "EvoTorch.BatchAccess.C97_higher_is_better",
    "EvoTorch.BatchAccess.C97_checks_and_ranking",
    "EvoTorch.BatchAccess.C97_all_objectives"
   ],
   "note": "Exact arithmetic with infinities and NaN; the ranking method is a parameter (see C19-C21); conversion to the dtype of the values is not modelled."
  },
  {
   "property": "C98",
   "status": "proved",
   "theorems": [
    "EvoTorch.BatchAccess.C98_evaluates_every_solution",
    "EvoTorch.BatchAccess.C98_refusals"
   ],
   "note": "The evaluation of a batch is taken to be row by row (C10, C13); dtypes are only compared."
  },
  {
   "property": "C99",
   "status": "partial",
   "theorems": [
    "EvoTorch.BatchAccess.C99_like_empty_partial",
    "EvoTorch.BatchAccess.C99_violated_filled"
   ],
   "note": "Only empty=True works; otherwise the constructor raises AttributeError (C99_violated_filled)."
  },
  {
   "property": "C100",
   "status": "proved",
   "theorems": [
    "EvoTorch.OperatorHeap.C100_mutation",
    "EvoTorch.OperatorHeap.C100_cross_over",
    "EvoTorch.OperatorHeap.C100_cosyne_permutation",
    "EvoTorch.OperatorHeap.C100_cut_and_splice"
   ],
   "note": "What the operators compute is an arbitrary function (length-preserving for mutation and permutation); see C26-C32 for it."
  },
  {
   "property": "C101",
   "status": "partial",
   "theorems": [
    "EvoTorch.Operators.C101_half_partial",
    "EvoTorch.Operators.C101_violated_rate"
   ],
   "note": "Half of the documented number is produced (C101_half_partial); more than one documented cross-over always gives too few children (C101_violated_rate)."
  },
  {
   "property": "C102",
   "status": "partial",
   "theorems": [
    "EvoTorch.PopReport.C102_names_partial",
    "EvoTorch.PopReport.C102_violated_exclude_string",
    "EvoTorch.PopReport.C102_values",
    "EvoTorch.PopReport.C102_violated_excluding_pop_best"
   ],
   "note": "Values proved for evaluated populations in exact arithmetic (argmax/argmin as specified oracles); names proved for lists of excluded names. Missing because false: a string given as `exclude` (as GaussianSearchAlgorithm does) excludes nothing, and excluding pop_best makes pop_best_eval None."
  },
  {
   "property": "C103",
   "status": "partial",
   "theorems": [
    "EvoTorch.ProblemLife.C103_partial",
    "EvoTorch.ProblemLife.C103_violated_copy",
    "EvoTorch.ProblemLife.C103_violated_supervised",
    "EvoTorch.ProblemLife.C103_violated_generator",
    "EvoTorch.ProblemLife.C103_violated_kill"
   ],
   "note": "Proved for every history in which no problem that evaluated in its own process is copied, actors are removed only when there are some, and no problem with its own generator uses actors. Missing because false in the code: each of the three excluded cases fails (C103_violated_*)."
  },
  {
   "property": "C104",
   "status": "partial",
   "theorems": [
    "EvoTorch.SearchAgree.C104_cem_partial",
    "EvoTorch.SearchAgree.C104_pgpe_partial",
    "EvoTorch.SearchAgree.C104_violated_without_minimum",
    "EvoTorch.SearchAgree.C104_violated_outside"
   ],
   "note": "Proved for settings which include the defaults: initial standard deviation within the limits, stdev_min given (positive unless stdev_max_change is given) or stdev_max_change at most 1. Outside of these the code differs: without stdev_min the class lets the standard deviation become negative where the functional search stops at 0; an initial standard deviation outside the limits is treated differently. Gradients are an arbitrary common function of center, standard deviation and evaluation data (both call Distribution.compute_gradients)."
  },
  {
   "property": "C105",
   "status": "partial",
   "theorems": [
    "EvoTorch.Policy.C105_rows_partial",
    "EvoTorch.Policy.C105_untouched_aux",
    "EvoTorch.Policy.C105_caller_partial",
    "EvoTorch.Policy.C105_violated_caller",
    "EvoTorch.Policy.C105_violated_locomotor",
    "EvoTorch.Policy.C105_rnn",
    "EvoTorch.Policy.C105_lstm"
   ],
   "note": "Proved for networks whose hidden state of zeros means the same as no hidden state (shown for the library's RNN and LSTM), which keep no state in their own attributes, and for callers which do not give the same tensor object twice. The code violates the claim otherwise: Policy.reset (and StatefulModule.reset) does not reset the time step of a LocomotorNet, and set_parameters(..., indices) overwrites the tensor given by the caller before. Parameters are 2-dimensional in the model."
  },
  {
   "property": "C106",
   "status": "partial",
   "theorems": [
    "EvoTorch.FitnessDevice.C106_aux_device",
    "EvoTorch.FitnessDevice.C106_decorators",
    "EvoTorch.FitnessDevice.C106_evaluation_partial",
    "EvoTorch.FitnessDevice.C106_violated_evaluate_all",
    "EvoTorch.FitnessDevice.C106_refused_partial"
   ],
   "note": "Proved for problems whose _evaluate_all is not decorated. A decorated _evaluate_all is not refused as documented: the code compares bound methods with `is`, which never holds (C106_violated_evaluate_all)."
  },
  {
   "property": "C107",
   "status": "partial",
   "theorems": [
    "EvoTorch.ExportedPolicy.C107_gym_partial",
    "EvoTorch.ExportedPolicy.C107_vec_partial",
    "EvoTorch.ExportedPolicy.C107_save_partial",
    "EvoTorch.ExportedPolicy.C107_violated_save",
    "EvoTorch.ExportedPolicy.C107_memory_partial",
    "EvoTorch.ExportedPolicy.C107_memory_parameters",
    "EvoTorch.ExportedPolicy.C107_violated_memory",
    "EvoTorch.ExportedPolicy.C107_exports_are_separate",
    "EvoTorch.ExportedPolicy.C107_clipped_other"
   ],
   "note": "Violated in two places: GymNE.save_solution raises an AttributeError if observations are normalised and none was seen yet (to_policy succeeds); the network exported by VecGymNE for a cpu tensor or a NumPy float32 array shares its memory. VecGymNE has no evaluation with frozen statistics, so there the comparison is with steps whose observations were normalised with the exported statistics."
  },
  {
   "property": "C108",
   "status": "proved",
   "theorems": [
    "EvoTorch.ContainerDtype.C108_terminates",
    "EvoTorch.ContainerDtype.C108_result",
    "EvoTorch.ContainerDtype.C108_errors",
    "EvoTorch.ContainerDtype.C108_succeeds_iff",
    "EvoTorch.ContainerDtype.C108_cast"
   ],
   "note": "Python's recursion limit is not modelled. A cycle through a tuple is not preserved by casting (as in C37)."
  },
  {
   "property": "C109",
   "status": "partial",
   "theorems": [
    "EvoTorch.DistributionObjects.C109_construct_partial",
    "EvoTorch.DistributionObjects.C109_result",
    "EvoTorch.DistributionObjects.C109_errors",
    "EvoTorch.DistributionObjects.C109_uniform",
    "EvoTorch.DistributionObjects.C109_modified_copy",
    "EvoTorch.DistributionObjects.C109_to",
    "EvoTorch.DistributionObjects.C109_violated_explicit_dtype",
    "EvoTorch.DistributionObjects.C109_violated_modified_copy",
    "EvoTorch.DistributionObjects.C109_exp_caller_partial",
    "EvoTorch.DistributionObjects.C109_violated_exp_constructor",
    "EvoTorch.DistributionObjects.C109_violated_stale_inverse",
    "EvoTorch.DistributionObjects.C109_rates",
    "EvoTorch.DistributionObjects.C109_violated_rates",
    "EvoTorch.DistributionObjects.C109_exp_modified_copy_labels"
   ],
   "note": "Proved for the separable Gaussians: which dictionaries are accepted, the resulting parameters, one dtype and device along every history, modified copies. The code violates: an explicit dtype does not help with mixed tensors (C109_violated_explicit_dtype, C109_violated_modified_copy); the ExpGaussian constructor and update_parameters write into the caller's dictionaries (C109_violated_exp_constructor, C109_violated_rates); a new sigma keeps the old inverse (C109_violated_stale_inverse)."
  },
  {
   "property": "C110",
   "status": "proved",
   "theorems": [
    "EvoTorch.FunctionalCalls.C110_keywords",
    "EvoTorch.FunctionalCalls.C110_filled",
    "EvoTorch.FunctionalCalls.C110_same",
    "EvoTorch.FunctionalCalls.C110_refused",
    "EvoTorch.FunctionalCalls.C110_dictionary",
    "EvoTorch.FunctionalCalls.C110_batched",
    "EvoTorch.FunctionalCalls.C110_estimator",
    "EvoTorch.FunctionalCalls.C110_no_sense",
    "EvoTorch.FunctionalCalls.C110_modes",
    "EvoTorch.FunctionalCalls.C110_mismatch",
    "EvoTorch.FunctionalCalls.C110_sampler_init"
   ],
   "note": "The names of the required parameters are distinct. The distribution class and the fitness function are parameters of the model; random draws inside a batch are not shown (vmap with randomness=different)."
  },
  {
   "property": "C111",
   "status": "partial",
   "theorems": [
    "EvoTorch.TensorMaker.C111_filled",
    "EvoTorch.TensorMaker.C111_empty_partial",
    "EvoTorch.TensorMaker.C111_refused",
    "EvoTorch.TensorMaker.C111_out_partial",
    "EvoTorch.TensorMaker.C111_random_partial",
    "EvoTorch.TensorMaker.C111_shaped_like",
    "EvoTorch.TensorMaker.C111_randint_partial",
    "EvoTorch.TensorMaker.C111_identity",
    "EvoTorch.TensorMaker.C111_as_tensor",
    "EvoTorch.TensorMaker.C111_violated_dtype_name",
    "EvoTorch.TensorMaker.C111_violated_randint_eval",
    "EvoTorch.TensorMaker.C111_violated_empty_out",
    "EvoTorch.TensorMaker.C111_violated_exception_returned",
    "EvoTorch.TensorMaker.C111_violated_out_contradicted",
    "EvoTorch.TensorMaker.C111_violated_out_scalar",
    "EvoTorch.TensorMaker.C111_violated_objects",
    "EvoTorch.TensorMaker.C111_violated_as_tensor",
    "EvoTorch.TensorMaker.C111_shapes_refused",
    "EvoTorch.TensorMaker.C111_as_objects"
   ],
   "note": "Proved for every call without the following, where the code violates the claim: names of dtypes in the random makers, use_eval_dtype in make_randint, out in make_empty, out without dimensions in make_ones and make_nan, zeros, ones and NaN for object dtypes, object arrays on other devices, arguments contradicting out, and the function as_tensor without a dtype (C111_violated_*). Names of dtypes, the dtypes that can represent NaN and those of which normal numbers can be drawn are parameters; torch's reading of sizes is part of the model."
  },
  {
   "property": "C112",
   "status": "partial",
   "theorems": [
    "EvoTorch.Immutable.C112_frozen",
    "EvoTorch.Immutable.C112_equality_partial",
    "EvoTorch.Immutable.C112_equality_reflected_partial",
    "EvoTorch.Immutable.C112_equal_to_original",
    "EvoTorch.Immutable.C112_items",
    "EvoTorch.Immutable.C112_concatenation",
    "EvoTorch.Immutable.C112_membership_partial",
    "EvoTorch.Immutable.C112_set",
    "EvoTorch.Immutable.C112_dictionary",
    "EvoTorch.Immutable.C112_pickled_partial",
    "EvoTorch.Immutable.C112_mutable_partial",
    "EvoTorch.Immutable.C112_numeric_elements",
    "EvoTorch.Immutable.C112_violated_comparison",
    "EvoTorch.Immutable.C112_violated_set_membership",
    "EvoTorch.Immutable.C112_violated_pickled_set",
    "EvoTorch.Immutable.C112_violated_tuple_key",
    "EvoTorch.Immutable.C112_atoms",
    "EvoTorch.Immutable.C112_tuple_keys",
    "EvoTorch.Immutable.C112_tuple_key_of_same_length"
   ],
   "note": "The code violates the claim: an ImmutableList raises TypeError when compared with something that is not iterable (also inside a membership test) and equals strings and dictionaries which iterate to its items; a tuple in a membership test of an ImmutableSet is a TypeError; ImmutableSets cannot be unpickled; dictionaries with tuples as keys have no mutable copy. Proved: exact acceptance of as_immutable and its result; equality as for ordinary values wherever lists meet lists, hence equality with the original; item access, concatenation, membership, dictionary lookups, pickling without sets, mutable copies without tuple keys."
  },
  {
   "property": "C113",
   "status": "proved",
   "theorems": [
    "EvoTorch.BatchedSearch.C113_call",
    "EvoTorch.BatchedSearch.C113_single",
    "EvoTorch.BatchedSearch.C113_cem_ask",
    "EvoTorch.BatchedSearch.C113_cem_tell",
    "EvoTorch.BatchedSearch.C113_cem_tells",
    "EvoTorch.BatchedSearch.C113_cem_run",
    "EvoTorch.BatchedSearch.C113_optimizer_tell",
    "EvoTorch.BatchedSearch.C113_optimizer_tells",
    "EvoTorch.BatchedSearch.C113_pgpe_ask",
    "EvoTorch.BatchedSearch.C113_pgpe_tell",
    "EvoTorch.BatchedSearch.C113_pgpe_tells",
    "EvoTorch.BatchedSearch.C113_pgpe_run",
    "EvoTorch.BatchedSearch.C113_adam",
    "EvoTorch.BatchedSearch.C113_clipup",
    "EvoTorch.BatchedSearch.C113_sgd"
   ],
   "note": "The decorated functions are modelled with the model of expects_ndim (C60); what they compute for one search is a parameter whose result shape may not depend on the entries of its arguments. Batches with a dimension of size 0 are excluded. The construction of the initial states is not part of this claim. Dtypes and devices: C165."
  },
  {
   "property": "C114",
   "status": "proved",
   "theorems": [
    "EvoTorch.LogLikelihood.C114_pgpe_gradients",
    "EvoTorch.LogLikelihood.C114_pgpe_improves",
    "EvoTorch.LogLikelihood.C114_symmetric_gradients",
    "EvoTorch.LogLikelihood.C114_snes_gradients",
    "EvoTorch.LogLikelihood.C114_snes_improves",
    "EvoTorch.LogLikelihood.C114_xnes_gradients",
    "EvoTorch.LogLikelihood.C114_xnes_improves"
   ],
   "note": "Gradients of SeparableGaussian, SymmetricSeparableGaussian, ExpSeparableGaussian and ExpGaussian are the derivatives of the utility-weighted log-likelihood (Mathlib's gaussianPDFReal; full Gaussian by change of variables, logFull_spec); small updates increase it."
  },
  {
   "property": "C115",
   "status": "proved",
   "theorems": [
    "EvoTorch.Generations.C115_rank_monotone",
    "EvoTorch.Generations.C115_rank_sense",
    "EvoTorch.Generations.C115_monotone",
    "EvoTorch.Generations.C115_senses",
    "EvoTorch.Generations.C115_offset",
    "EvoTorch.Generations.C115_xnes_affine",
    "EvoTorch.Generations.C115_separable_coordinates",
    "EvoTorch.Generations.C115_cmaes_coordinates",
    "EvoTorch.Generations.C115_cmaes_shift_and_scale",
    "EvoTorch.Generations.C115_cmaes_separable_coordinates"
   ],
   "note": "Order-based rankings and whole runs of XNES, SNES, PGPE, CEM, CMA-ES invariant under increasing fitness transformations and sense duality; coordinate equivariance of whole runs. Cholesky factorisation: existence and uniqueness proved, torch.linalg.cholesky assumed to return it."
  },
  {
   "property": "C116",
   "status": "proved",
   "theorems": [
    "EvoTorch.CMAES.C116_step_size",
    "EvoTorch.CMAES.C116_default_rates",
    "EvoTorch.CMAES.C116_default_covariance_path_rate",
    "EvoTorch.CMAES.C116_path_keeps_unit_variance",
    "EvoTorch.CMAES.C116_covariance_path_keeps_unit_variance",
    "EvoTorch.CMAES.C116_stall",
    "EvoTorch.CMAES.C116_separable_schedule",
    "EvoTorch.CMAES.C116_full_schedule",
    "EvoTorch.CMAES.C116_period"
   ],
   "note": "Step size: exact trichotomy for both exponents. Unit variance of the paths is proved with Mathlib's variance for independent components and a fixed order of the population. Schedule for separable and non-separable runs of any length."
  },
  {
   "property": "C117",
   "status": "partial",
   "theorems": [
    "EvoTorch.PyCMAES.C117_options_partial",
    "EvoTorch.PyCMAES.C117_bounds_violated",
    "EvoTorch.PyCMAES.C117_is_plain_loop",
    "EvoTorch.PyCMAES.C117_cost_order",
    "EvoTorch.PyCMAES.C117_missing_fitness",
    "EvoTorch.PyCMAES.C117_max_is_min_of_negation"
   ],
   "note": "Loop refinement, direction, missing fitness, symmetry and the full content of the option dictionary are proved. Missing because the code violates it (C117_bounds_violated): bounds given in cma_options to a problem with bounds are silently replaced instead of refused."
  },
  {
   "property": "C118",
   "status": "partial",
   "theorems": [
    "EvoTorch.EnvPool.C118_within_limit_partial",
    "EvoTorch.EnvPool.C118_no_limit",
    "EvoTorch.EnvPool.C118_reuse",
    "EvoTorch.EnvPool.C118_unfaithful",
    "EvoTorch.EnvPool.C118_violated_actors",
    "EvoTorch.EnvPool.C118_simulator_device_partial",
    "EvoTorch.EnvPool.C118_violated_named_actors"
   ],
   "note": "Proved without actors and for numeric num_actors. Missing because the code violates it: with actors the limit never arrives, the remote call lacks its kwargs argument (C118_violated_actors: TypeError at every evaluation, or the limit is ignored, depending on when ray checks arguments); a string num_actors makes the constructor raise TypeError (C118_violated_named_actors)."
  },
  {
   "property": "C119",
   "status": "partial",
   "theorems": [
    "EvoTorch.EnvStep.C119_same_action",
    "EvoTorch.EnvStep.C119_legal_partial",
    "EvoTorch.EnvStep.C119_action",
    "EvoTorch.EnvStep.C119_noise_partial",
    "EvoTorch.EnvStep.C119_violated_noise",
    "EvoTorch.EnvStep.C119_violated_start",
    "EvoTorch.EnvStep.C119_answers",
    "EvoTorch.EnvStep.C119_vector_answers",
    "EvoTorch.EnvStep.C119_numeric_flags",
    "EvoTorch.EnvStep.C119_reset",
    "EvoTorch.EnvStep.C119_reset_first",
    "EvoTorch.EnvStep.C119_refused_not_forwarded",
    "EvoTorch.EnvStep.C119_violated_noise_mean"
   ],
   "note": "Legal actions are proved when discrete actions are numbered from 0; Gaussian noise is proved for GymNE. The full claim is false: both problem classes ignore the start of a discrete space (C119_violated_start), and VecGymNE adds uniform noise in [0, stdev) with mean stdev/2 (C119_violated_noise, C119_violated_noise_mean)."
  },
  {
   "property": "C120",
   "status": "partial",
   "theorems": [
    "EvoTorch.EvalProtocol.C120_order",
    "EvoTorch.EvalProtocol.C120_failure",
    "EvoTorch.EvalProtocol.C120_status",
    "EvoTorch.EvalProtocol.C120_in_actor",
    "EvoTorch.EvalProtocol.C120_prepare_once",
    "EvoTorch.EvalProtocol.C120_shared_partial",
    "EvoTorch.EvalProtocol.C120_violated_replaced",
    "EvoTorch.EvalProtocol.C120_violated_change",
    "EvoTorch.EvalProtocol.C120_remote_method",
    "EvoTorch.EvalProtocol.C120_remote_attribute"
   ],
   "note": "Order of stages, failures, freshness of the status, single preparation and remote access are proved over all histories. Shared attributes are proved to reach the actors if they are set before the first evaluation and actors are not replaced; otherwise the claim is false (C120_violated_replaced, C120_violated_change)."
  },
  {
   "property": "C121",
   "status": "proved",
   "theorems": [
    "EvoTorch.Unbiased.C121_slopes",
    "EvoTorch.Unbiased.C121_plain_mu",
    "EvoTorch.Unbiased.C121_plain_sigma",
    "EvoTorch.Unbiased.C121_symmetric",
    "EvoTorch.Unbiased.C121_uphill",
    "EvoTorch.Unbiased.C121_one_solution",
    "EvoTorch.Unbiased.C121_cases"
   ],
   "note": "Expectations are Lebesgue integrals over independent standard normal draws; the estimates are the model's make_gaussian followed by _compute_gradients. C121_slopes shows that the slopes exist, C121_cases that bounded functions and the sphere function are covered; exact arithmetic."
  },
  {
   "property": "C122",
   "status": "partial",
   "theorems": [
    "EvoTorch.SolutionObject.C122_handle",
    "EvoTorch.SolutionObject.C122_bad_index",
    "EvoTorch.SolutionObject.C122_violated_end",
    "EvoTorch.SolutionObject.C122_set_values",
    "EvoTorch.SolutionObject.C122_violated_scalar",
    "EvoTorch.SolutionObject.C122_refused_values",
    "EvoTorch.SolutionObject.C122_set_evals",
    "EvoTorch.SolutionObject.C122_refused_evals",
    "EvoTorch.SolutionObject.C122_evaluation",
    "EvoTorch.SolutionObject.C122_other_solutions",
    "EvoTorch.SolutionObject.C122_clone",
    "EvoTorch.SolutionObject.C122_to",
    "EvoTorch.SolutionObject.C122_to_batch",
    "EvoTorch.SolutionObject.C122_access",
    "EvoTorch.SolutionObject.C122_violated_stale"
   ],
   "note": "The index right behind the last row is accepted (C122_violated_end); one number is broadcast over all decision values (C122_violated_scalar); a tensor from access_values stays writable after a later evaluation, giving a stale evaluation (C122_violated_stale). The rest is proved for every history; numeric dtypes."
  },
  {
   "property": "C123",
   "status": "partial",
   "theorems": [
    "EvoTorch.Testing.C123_allclose_partial",
    "EvoTorch.Testing.C123_allclose_shapes",
    "EvoTorch.Testing.C123_allclose_number_partial",
    "EvoTorch.Testing.C123_violated_allclose",
    "EvoTorch.Testing.C123_violated_allclose_bool",
    "EvoTorch.Testing.C123_between_partial",
    "EvoTorch.Testing.C123_between_numbers",
    "EvoTorch.Testing.C123_violated_between",
    "EvoTorch.Testing.C123_eachclose_partial",
    "EvoTorch.Testing.C123_violated_eachclose",
    "EvoTorch.Testing.C123_shape",
    "EvoTorch.Testing.C123_dtype"
   ],
   "note": "Proved for floating point data. Violated for integer data: assert_allclose rounds the actual numbers towards zero to the integer dtype of the desired ones (1.9 passes for 1), assert_almost_between rounds the bounds (0 passes for [0.5, 2]) and assert_eachclose rounds the value (an array of ones passes for 1.5); see C123_violated_allclose, C123_violated_between and C123_violated_eachclose. A shape given as a list never matches (C123_shape)."
  },
  {
   "property": "C124",
   "status": "partial",
   "theorems": [
    "EvoTorch.ObjectArray.C124_new",
    "EvoTorch.ObjectArray.C124_slice_shares",
    "EvoTorch.ObjectArray.C124_selection_copies_partial",
    "EvoTorch.ObjectArray.C124_violated_duplicates",
    "EvoTorch.ObjectArray.C124_violated_read_only",
    "EvoTorch.ObjectArray.C124_repeat_partial",
    "EvoTorch.ObjectArray.C124_violated_repeat",
    "EvoTorch.ObjectArray.C124_refused",
    "EvoTorch.ObjectArray.C124_violated_repeat_tuple",
    "EvoTorch.ObjectArray.C124_from_numpy",
    "EvoTorch.ObjectArray.C124_numpy",
    "EvoTorch.ObjectArray.C124_round_trip"
   ],
   "note": "Violated: repeat(n) with a number, the documented call, always raises a TypeError (C124_violated_repeat) and a tuple with several numbers is accepted (C124_violated_repeat_tuple); a slice made with the constructor of a read-only array is writable and shares its memory (C124_violated_read_only); a selection with a repeated position has aliased elements (C124_violated_duplicates). Everything else is proved for all histories."
  },
  {
   "property": "C125",
   "status": "partial",
   "theorems": [
    "EvoTorch.HookList.C125_elements",
    "EvoTorch.HookList.C125_insert",
    "EvoTorch.HookList.C125_append",
    "EvoTorch.HookList.C125_pop",
    "EvoTorch.HookList.C125_clear",
    "EvoTorch.HookList.C125_remove",
    "EvoTorch.HookList.C125_reverse",
    "EvoTorch.HookList.C125_slice",
    "EvoTorch.HookList.C125_slice_zero",
    "EvoTorch.HookList.C125_positions",
    "EvoTorch.HookList.C125_set_slice",
    "EvoTorch.HookList.C125_del_slice",
    "EvoTorch.HookList.C125_call_unchanged",
    "EvoTorch.HookList.C125_call_growing",
    "EvoTorch.HookList.C125_violated_self_removal"
   ],
   "note": "All sequence operations are proved, as is the call for functions which do not change the hook or only add to its end. Violated: a function which removes itself while the hook is called makes the hook skip the function after it (C125_violated_self_removal)."
  },
  {
   "property": "C126",
   "status": "partial",
   "theorems": [
    "EvoTorch.AlgoConfig.C126_pgpe_accepts",
    "EvoTorch.AlgoConfig.C126_pgpe",
    "EvoTorch.AlgoConfig.C126_snes",
    "EvoTorch.AlgoConfig.C126_xnes",
    "EvoTorch.AlgoConfig.C126_snes_accepts",
    "EvoTorch.AlgoConfig.C126_xnes_accepts",
    "EvoTorch.AlgoConfig.C126_cem",
    "EvoTorch.AlgoConfig.C126_cem_accepts",
    "EvoTorch.AlgoConfig.C126_defaults",
    "EvoTorch.AlgoConfig.C126_clipup",
    "EvoTorch.AlgoConfig.C126_adam",
    "EvoTorch.AlgoConfig.C126_refusals",
    "EvoTorch.AlgoConfig.C126_sgd",
    "EvoTorch.AlgoConfig.C126_no_config",
    "EvoTorch.AlgoConfig.C126_names",
    "EvoTorch.AlgoConfig.C126_violated_config_stepsize",
    "EvoTorch.AlgoConfig.C126_violated_odd",
    "EvoTorch.AlgoConfig.C126_draws_partial",
    "EvoTorch.AlgoConfig.C126_violated_not_numeric"
   ],
   "note": "Proved for the constructors of PGPE, SNES, CEM and XNES and for optimizers made by name: exactly which arguments are accepted, all resulting settings, the default formulas. Three disagreements are proved: a stepsize in optimizer_config is silently ignored; a symmetric PGPE with distributed=True on a problem without actors accepts an odd popsize and then cannot draw its first population; SNES refuses a non-numeric problem with the TypeError of a logarithm of None instead of the ValueError of its check."
  },
  {
   "property": "C127",
   "status": "proved",
   "theorems": [
    "EvoTorch.StatusView.C127_mapping",
    "EvoTorch.StatusView.C127_missing",
    "EvoTorch.StatusView.C127_read_only",
    "EvoTorch.StatusView.C127_print",
    "EvoTorch.StatusView.C127_to_dict",
    "EvoTorch.StatusView.C127_steps",
    "EvoTorch.StatusView.C127_empty_run"
   ],
   "note": "Status view over the reporter model of C39, over arbitrary getters; clock over arbitrary histories of steps, resets and runs."
  },
  {
   "property": "C128",
   "status": "partial",
   "theorems": [
    "EvoTorch.OperatorConfig.C128_cross_over",
    "EvoTorch.OperatorConfig.C128_cross_over_refused",
    "EvoTorch.OperatorConfig.C128_cross_over_kinds",
    "EvoTorch.OperatorConfig.C128_violated_default_points",
    "EvoTorch.OperatorConfig.C128_children",
    "EvoTorch.OperatorConfig.C128_count_unique",
    "EvoTorch.OperatorConfig.C128_violated_accepted",
    "EvoTorch.OperatorConfig.C128_violated_small_rate",
    "EvoTorch.OperatorConfig.C128_gaussian",
    "EvoTorch.OperatorConfig.C128_polynomial",
    "EvoTorch.OperatorConfig.C128_cosyne",
    "EvoTorch.OperatorConfig.C128_single",
    "EvoTorch.OperatorConfig.C128_violated_gaussian",
    "EvoTorch.OperatorConfig.C128_violated_cosyne"
   ],
   "note": "The code violates parts: the default num_points of MultiPointCrossOver cannot be used; odd or negative num_children, empty tournaments and one-point cross-over of one gene are accepted at construction although no call succeeds; small rates raise an IndexError; GaussianMutation accepts object problems; CosynePermutation raises an AttributeError for a non-problem. The rest is proved."
  },
  {
   "property": "C129",
   "status": "partial",
   "theorems": [
    "EvoTorch.InfoBatch.C129_total",
    "EvoTorch.InfoBatch.C129_entries",
    "EvoTorch.InfoBatch.C129_lengths",
    "EvoTorch.InfoBatch.C129_reported",
    "EvoTorch.InfoBatch.C129_violated_device"
   ],
   "note": "Proved: combining never raises, which keys appear, stacked or listed, one element per sub-environment, order, empty_info and device. Violated: with a target device, arrays that cannot be stacked stay on the CPU inside a list (C129_violated_device)."
  },
  {
   "property": "C130",
   "status": "partial",
   "theorems": [
    "EvoTorch.VecEnvMake.C130_round_trip",
    "EvoTorch.VecEnvMake.C130_batched_rows",
    "EvoTorch.VecEnvMake.C130_violated_start",
    "EvoTorch.VecEnvMake.C130_violated_scalar",
    "EvoTorch.VecEnvMake.C130_wrapper_refuses",
    "EvoTorch.VecEnvMake.C130_wrapped",
    "EvoTorch.VecEnvMake.C130_constants",
    "EvoTorch.VecEnvMake.C130_rewrap",
    "EvoTorch.VecEnvMake.C130_refused",
    "EvoTorch.VecEnvMake.C130_registry",
    "EvoTorch.VecEnvMake.C130_options",
    "EvoTorch.VecEnvMake.C130_option_values",
    "EvoTorch.VecEnvMake.C130_single",
    "EvoTorch.VecEnvMake.C130_brax",
    "EvoTorch.VecEnvMake.C130_repeated",
    "EvoTorch.VecEnvMake.C130_vecgymne",
    "EvoTorch.VecEnvMake.C130_vecgymne_refused"
   ],
   "note": "Proved for boxes with at least one dimension and discrete spaces that begin at 0, every number of sub-environments, every name and every option dictionary. Violated: a discrete space with another start comes back as one that begins at 0 (C130_violated_start); boxes of shape () are accepted when batching and refused when wrapping (C130_violated_scalar). gym.make, brax and the dtype of boxes are not modelled."
  },
  {
   "property": "C131",
   "status": "partial",
   "theorems": [
    "EvoTorch.Classify.C131_round_trip",
    "EvoTorch.Classify.C131_names",
    "EvoTorch.Classify.C131_object",
    "EvoTorch.Classify.C131_violated_object",
    "EvoTorch.Classify.C131_dtypes",
    "EvoTorch.Classify.C131_numpy_dtypes",
    "EvoTorch.Classify.C131_violated_bfloat16",
    "EvoTorch.Classify.C131_scalars",
    "EvoTorch.Classify.C131_vectors",
    "EvoTorch.Classify.C131_tensor_vectors",
    "EvoTorch.Classify.C131_strings",
    "EvoTorch.Classify.C131_violated_empty",
    "EvoTorch.Classify.C131_violated_bytes",
    "EvoTorch.Classify.C131_sequences",
    "EvoTorch.Classify.C131_expect_none"
   ],
   "note": "Proved for all dtypes and values except bfloat16. Violated: bfloat16 dtypes, scalars and vectors raise TypeError (C131_violated_bfloat16); np.dtype(object) is not recognised as an object dtype (C131_violated_object); the empty string is a vector of every kind (C131_violated_empty); every bytes object is a vector of integers and reals, though not a sequence (C131_violated_bytes)."
  },
  {
   "property": "C132",
   "status": "partial",
   "theorems": [
    "EvoTorch.PickleFile.C132_contents",
    "EvoTorch.PickleFile.C132_unshared",
    "EvoTorch.PickleFile.C132_stats",
    "EvoTorch.PickleFile.C132_policy",
    "EvoTorch.PickleFile.C132_no_policy",
    "EvoTorch.PickleFile.C132_failed",
    "EvoTorch.PickleFile.C132_gone",
    "EvoTorch.PickleFile.C132_no_key",
    "EvoTorch.PickleFile.C132_names",
    "EvoTorch.PickleFile.C132_width",
    "EvoTorch.PickleFile.C132_order",
    "EvoTorch.PickleFile.C132_violated_order",
    "EvoTorch.PickleFile.C132_directory",
    "EvoTorch.PickleFile.C132_history",
    "EvoTorch.PickleFile.C132_violated_overwrite",
    "EvoTorch.PickleFile.C132_violated_stats",
    "EvoTorch.PickleFile.C132_prefix"
   ],
   "note": "Proved for all statuses, names, paddings and histories, with the two cases in which it fails: saving twice under the same explicit name loses the earlier file when writing fails (C132_violated_overwrite), and a run with observation statistics on another device and no observation yet cannot be saved (C132_violated_stats). Alphabetical order holds as long as the generation fits the padding (C132_violated_order)."
  },
  {
   "property": "C133",
   "status": "proved",
   "theorems": [
    "EvoTorch.Report.C133_filter",
    "EvoTorch.Report.C133_feed",
    "EvoTorch.Report.C133_zero",
    "EvoTorch.Report.C133_mlflow",
    "EvoTorch.Report.C133_mlflow_init",
    "EvoTorch.Report.C133_neptune",
    "EvoTorch.Report.C133_wandb",
    "EvoTorch.Report.C133_sacred",
    "EvoTorch.Report.C133_sacred_result",
    "EvoTorch.Report.C133_stdout",
    "EvoTorch.Report.C133_stdout_empty",
    "EvoTorch.Report.C133_pandas",
    "EvoTorch.Report.C133_frame",
    "EvoTorch.Report.C133_index"
   ],
   "note": "Proved for all intervals, statuses and histories; services are the lists of what they receive. The data-frame rows are proved independent of later writes by an invariant on who owns which array."
  },
  {
   "property": "C134",
   "status": "partial",
   "theorems": [
    "EvoTorch.Randomness.C134_source",
    "EvoTorch.Randomness.C134_refused",
    "EvoTorch.Randomness.C134_seeded",
    "EvoTorch.Randomness.C134_unseeded",
    "EvoTorch.Randomness.C134_env_seeds",
    "EvoTorch.Randomness.C134_reseed",
    "EvoTorch.Randomness.C134_schedule",
    "EvoTorch.Randomness.C134_violated_vecgymne",
    "EvoTorch.Randomness.C134_global",
    "EvoTorch.Randomness.C134_unseeded_schedule"
   ],
   "note": "Proved for all programs, states and schedules, for all draws of problems, operators and searchers, by noninterference. Missing, because the code violates it: the action noise and the environment seeds of VecGymNE always come from the global generators (C134_violated_vecgymne, C134_global). One draw stands for one call of a random function; the sequence of numbers belonging to a seed is a parameter. Device mismatches between generators and tensors are the subject of C167."
  },
  {
   "property": "C135",
   "status": "partial",
   "theorems": [
    "EvoTorch.LogConfig.C135_once",
    "EvoTorch.LogConfig.C135_format",
    "EvoTorch.LogConfig.C135_already",
    "EvoTorch.LogConfig.C135_inherited",
    "EvoTorch.LogConfig.C135_configured",
    "EvoTorch.LogConfig.C135_override",
    "EvoTorch.LogConfig.C135_override_partial",
    "EvoTorch.LogConfig.C135_violated_override"
   ],
   "note": "The documented configuration is proved for a logger that is not configured, and for overriding a logger with at most one handler. Overriding removes handlers from the list it iterates over, so every second handler stays (C135_override), and from the second overriding call on messages are printed twice (C135_violated_override)."
  },
  {
   "property": "C136",
   "status": "partial",
   "theorems": [
    "EvoTorch.TensorUtil.C136_ensure",
    "EvoTorch.TensorUtil.C136_ensure_identity",
    "EvoTorch.TensorUtil.C136_method",
    "EvoTorch.TensorUtil.C136_clip",
    "EvoTorch.TensorUtil.C136_clipped",
    "EvoTorch.TensorUtil.C136_clip_bounds_partial",
    "EvoTorch.TensorUtil.C136_violated_clip_integer",
    "EvoTorch.TensorUtil.C136_empty_like_tensor",
    "EvoTorch.TensorUtil.C136_empty_like_objects_partial",
    "EvoTorch.TensorUtil.C136_empty_like_refused",
    "EvoTorch.TensorUtil.C136_violated_empty_like",
    "EvoTorch.TensorUtil.C136_make_tensor",
    "EvoTorch.TensorUtil.C136_make_objects",
    "EvoTorch.TensorUtil.C136_violated_make_objects_device",
    "EvoTorch.TensorUtil.C136_numpy_copy_partial",
    "EvoTorch.TensorUtil.C136_violated_numpy_copy",
    "EvoTorch.TensorUtil.C136_violated_numpy_copy_grad"
   ],
   "note": "Proved as stated, except where the code differs: fractional bounds of integer tensors are truncated (C136_violated_clip_integer), a number as shape of an object array ends in an unbound variable (C136_violated_empty_like), the device of an object array is ignored by make_tensor (C136_violated_make_objects_device), numpy_copy accepts neither PyTorch dtypes nor tensors that require gradients (C136_violated_numpy_copy, C136_violated_numpy_copy_grad). Exact numbers, no NaN."
  },
  {
   "property": "C137",
   "status": "partial",
   "theorems": [
    "EvoTorch.NEConfig.C137_environment",
    "EvoTorch.NEConfig.C137_constants",
    "EvoTorch.NEConfig.C137_callable",
    "EvoTorch.NEConfig.C137_string_partial",
    "EvoTorch.NEConfig.C137_violated_string_args",
    "EvoTorch.NEConfig.C137_module_and_plain",
    "EvoTorch.NEConfig.C137_schedule_partial",
    "EvoTorch.NEConfig.C137_violated_schedule",
    "EvoTorch.NEConfig.C137_supervised",
    "EvoTorch.NEConfig.C137_gym_partial",
    "EvoTorch.NEConfig.C137_vec_partial",
    "EvoTorch.NEConfig.C137_violated_num_actors",
    "EvoTorch.NEConfig.C137_violated_num_subbatches"
   ],
   "note": "Proved for all environments with the usual spaces, all signatures and arguments. Violated: GymNE drops num_subbatches; VecGymNE raises a TypeError for every string num_actors, and an AttributeError for schedules of a wrong length; network_args cannot replace obs_space and act_space in network strings of GymNE."
  },
  {
   "property": "C138",
   "status": "partial",
   "theorems": [
    "EvoTorch.GymRun.C138_episode",
    "EvoTorch.GymRun.C138_terminates",
    "EvoTorch.GymRun.C138_run",
    "EvoTorch.GymRun.C138_visualize",
    "EvoTorch.GymRun.C138_evaluate",
    "EvoTorch.GymRun.C138_violated_update_stats"
   ],
   "note": "Proved for all environments and policies as state machines: what an episode is, termination with a maximal length, average and sums, counters and statistics, visualisation. The documented claim that update_stats is ignored without observation normalisation is false (C138_violated_update_stats): the counters depend on it."
  },
  {
   "property": "C139",
   "status": "partial",
   "theorems": [
    "EvoTorch.BatchMake.C139_well_formed",
    "EvoTorch.BatchMake.C139_bounds",
    "EvoTorch.BatchMake.C139_slice",
    "EvoTorch.BatchMake.C139_indices",
    "EvoTorch.BatchMake.C139_mask",
    "EvoTorch.BatchMake.C139_refused",
    "EvoTorch.BatchMake.C139_merge_partial",
    "EvoTorch.BatchMake.C139_split_and_cat",
    "EvoTorch.BatchMake.C139_arguments",
    "EvoTorch.BatchMake.C139_violated_columns",
    "EvoTorch.BatchMake.C139_violated_tuple",
    "EvoTorch.BatchMake.C139_violated_merge"
   ],
   "note": "Proved for all slices, index lists, masks, merges of fitting batches and splits, and for the constructor arguments. False in the code: column slices are not refused (C139_violated_columns), take with a tuple does not take the named solutions (C139_violated_tuple), merging accepts batches of opposite senses and repeats single columns (C139_violated_merge)."
  },
  {
   "property": "C140",
   "status": "proved",
   "theorems": [
    "EvoTorch.Printing.C140_complete",
    "EvoTorch.Printing.C140_terminates",
    "EvoTorch.Printing.C140_cut"
   ],
   "note": "For all heaps, cycles included: complete text within the depth, cut beyond it, and a bound on the nested calls. Texts of objects that are not containers of the library are given."
  },
  {
   "property": "C141",
   "status": "partial",
   "theorems": [
    "EvoTorch.Printing.C141_position_partial",
    "EvoTorch.Printing.C141_violated_bytes",
    "EvoTorch.Printing.C141_erroneous_result"
   ],
   "note": "Lines for all strings; columns for characters of one byte. Columns are counted in bytes (C141_violated_bytes). Python's own parser is represented by the positions it documents."
  },
  {
   "property": "C142",
   "status": "partial",
   "theorems": [
    "EvoTorch.GridArgs.C142_accepted_partial",
    "EvoTorch.GridArgs.C142_refused",
    "EvoTorch.GridArgs.C142_fits_partial",
    "EvoTorch.GridArgs.C142_mismatch_refused",
    "EvoTorch.GridArgs.C142_violated_bins",
    "EvoTorch.GridArgs.C142_violated_mismatch"
   ],
   "note": "Proved for matching arguments; refused arguments are classified. The code violates the rest: a vector of numbers of bins of another length is truncated silently (C142_violated_bins), and a grid with another number of features than the solutions is accepted if one of the numbers is one (C142_violated_mismatch)."
  },
  {
   "property": "C143",
   "status": "partial",
   "theorems": [
    "EvoTorch.GradRequest.C143_local",
    "EvoTorch.GradRequest.C143_remote_partial",
    "EvoTorch.GradRequest.C143_hooks",
    "EvoTorch.GradRequest.C143_refused",
    "EvoTorch.GradRequest.C143_violated_none",
    "EvoTorch.GradRequest.C143_violated_stats",
    "EvoTorch.GradRequest.C143_violated_dtype"
   ],
   "note": "Proved without actors, and with actors for an explicit index. With actors the code violates the rest: no index is a TypeError (C143_violated_none), with_stats=False is ignored (C143_violated_stats), and the dtype of the distribution is not converted (C143_violated_dtype)."
  },
  {
   "property": "C144",
   "status": "partial",
   "theorems": [
    "EvoTorch.SaveSolution.C144_saved_partial",
    "EvoTorch.SaveSolution.C144_succeeds_partial",
    "EvoTorch.SaveSolution.C144_unharmed_partial",
    "EvoTorch.SaveSolution.C144_violated_architecture",
    "EvoTorch.SaveSolution.C144_violated_sequence"
   ],
   "note": "Proved if there are observations, everything can be pickled and sequences are representable as float32. The code violates the rest: a VecGymNE made from a local function cannot save, and the attempt destroys the file (C144_violated_architecture); sequences are rounded to float32 (C144_violated_sequence); a GymNE without observations cannot save (C107_violated_save)."
  },
  {
   "property": "C145",
   "status": "partial",
   "theorems": [
    "EvoTorch.SupervisedData.C145_passes",
    "EvoTorch.SupervisedData.C145_loader",
    "EvoTorch.SupervisedData.C145_loss",
    "EvoTorch.SupervisedData.C145_refused",
    "EvoTorch.SupervisedData.C145_violated_unpaired"
   ],
   "note": "Passes, choice of the loader, losses of pairs and the refusal of tuples and dictionaries are proved. Missing because false in the code: a data set of tensors which are not in tuples is not refused if a minibatch has two elements (C145_violated_unpaired)."
  },
  {
   "property": "C146",
   "status": "partial",
   "theorems": [
    "EvoTorch.ConstraintCalls.C146_violation_partial",
    "EvoTorch.ConstraintCalls.C146_log_barrier_partial",
    "EvoTorch.ConstraintCalls.C146_penalty_partial",
    "EvoTorch.ConstraintCalls.C146_violated_numbers",
    "EvoTorch.ConstraintCalls.C146_violated_integers",
    "EvoTorch.ConstraintCalls.C146_violated_mixed"
   ],
   "note": "Proved when at least one of the two sides is a tensor, and all tensors have the same floating dtype and device. Missing because false in the code: numbers only (TypeError, C146_violated_numbers), integer tensors (C146_violated_integers), tensors with different dtypes (C146_violated_mixed)."
  },
  {
   "property": "C147",
   "status": "partial",
   "theorems": [
    "EvoTorch.RemoteAccess.C147_each_once",
    "EvoTorch.RemoteAccess.C147_made",
    "EvoTorch.RemoteAccess.C147_refused",
    "EvoTorch.RemoteAccess.C147_stale",
    "EvoTorch.RemoteAccess.C147_stale_after_kill",
    "EvoTorch.RemoteAccess.C147_env_making",
    "EvoTorch.RemoteAccess.C147_problem_method",
    "EvoTorch.RemoteAccess.C147_violated_envs",
    "EvoTorch.RemoteAccess.C147_violated_copy"
   ],
   "note": "Proved for methods of problems, and for environments of problems which make them on demand. Missing because false in the code: before the first evaluation a VecGymNE has no environments, and calls on them fail (C147_violated_envs); accessors cannot be copied (C147_violated_copy)."
  },
  {
   "property": "C148",
   "status": "partial",
   "theorems": [
    "EvoTorch.NestedArrays.C148_immutable_partial",
    "EvoTorch.NestedArrays.C148_refused",
    "EvoTorch.NestedArrays.C148_mutable",
    "EvoTorch.NestedArrays.C148_copies_partial",
    "EvoTorch.NestedArrays.C148_pickled",
    "EvoTorch.NestedArrays.C148_independent_partial",
    "EvoTorch.NestedArrays.C148_violated_writeable",
    "EvoTorch.NestedArrays.C148_violated_copy",
    "EvoTorch.NestedArrays.C148_violated_copy_writeable",
    "EvoTorch.NestedArrays.C148_violated_nested",
    "EvoTorch.NestedArrays.C148_violated_shared",
    "EvoTorch.NestedArrays.C148_violated_view"
   ],
   "note": "Proved: as_immutable yields deeply immutable values with the same content and is idempotent if no writeable ObjectArray is involved, anything else is refused; mutable copies; pickling keeps immutability; copies of values without object arrays stay immutable; clones without numpy object arrays share no container. The code violates the rest: as_immutable of a writeable ObjectArray is an AttributeError, copies of read-only object arrays are writeable, arrays of arrays cannot be copied, deep_clone of a numpy object array shares its contents, and as_immutable of a read-only view changes with the array behind it (C148_violated_*)."
  },
  {
   "property": "C149",
   "status": "partial",
   "theorems": [
    "EvoTorch.SearchCopies.C149_independent",
    "EvoTorch.SearchCopies.C149_status_loggers",
    "EvoTorch.SearchCopies.C149_pickling_loggers_partial",
    "EvoTorch.SearchCopies.C149_pickled",
    "EvoTorch.SearchCopies.C149_violated_copy",
    "EvoTorch.SearchCopies.C149_violated_dropped"
   ],
   "note": "Independence (C149_independent), loggers of the status (C149_status_loggers) and the condition under which a search can be pickled (C149_pickled) are proved for all histories. For PicklingLogger the claim is proved for histories without copies (C149_pickling_loggers_partial) and fails for copies: weak references are copied as they are, so that the logger of a copy saves the original (C149_violated_copy), nothing if the original is gone (C149_violated_dropped); a search with a PicklingLogger cannot be pickled."
  },
  {
   "property": "C150",
   "status": "partial",
   "theorems": [
    "EvoTorch.NanSelection.C150_take_best_partial",
    "EvoTorch.NanSelection.C150_violated_maximised",
    "EvoTorch.NanSelection.C150_ranks_partial",
    "EvoTorch.NanSelection.C150_violated_ranks",
    "EvoTorch.NanSelection.C150_nes_partial",
    "EvoTorch.NanSelection.C150_violated_nes",
    "EvoTorch.NanSelection.C150_violated_elites",
    "EvoTorch.NanSelection.C150_elitist_partial",
    "EvoTorch.NanSelection.C150_violated_elitist"
   ],
   "note": "Proved for minimisation: argsort and take_best, the rankings centered, linear and nes, elitist runs of any length. For maximisation NaN is the best: C150_violated_maximised, C150_violated_ranks, C150_violated_nes, C150_violated_elitist; for the elites of the cross-entropy method it is the best for either sense (C150_violated_elites)."
  },
  {
   "property": "C151",
   "status": "partial",
   "theorems": [
    "EvoTorch.ParetoRuns.C151_size",
    "EvoTorch.ParetoRuns.C151_step",
    "EvoTorch.ParetoRuns.C151_nothing_lost_partial",
    "EvoTorch.ParetoRuns.C151_violated_extremes"
   ],
   "note": "Size, candidates and dominance are proved for every step and run. That progress is kept is proved as long as the non-dominated candidates fit into the population. It is false otherwise: take_best uses the argsort permutation of the crowding distances as if it were ranks, so an extreme solution of the front, with infinite crowding distance, is dropped and the best value of an objective is lost."
  },
  {
   "property": "C152",
   "status": "proved",
   "theorems": [
    "EvoTorch.SelectionPressure.C152_chances",
    "EvoTorch.SelectionPressure.C152_total",
    "EvoTorch.SelectionPressure.C152_pressure",
    "EvoTorch.SelectionPressure.C152_several_objectives",
    "EvoTorch.SelectionPressure.C152_independent"
   ],
   "note": "Exact probabilities as relative numbers of equally likely draws of make_randint; ties of the fitness are broken by sorting, as the code does. Noise with repeated numbers (probability zero for real numbers) is excluded."
  },
  {
   "property": "C153",
   "status": "proved",
   "theorems": [
    "EvoTorch.GlobalSearch.C153_rate",
    "EvoTorch.GlobalSearch.C153_converges",
    "EvoTorch.GlobalSearch.C153_mutation_probability",
    "EvoTorch.GlobalSearch.C153_needs_elitism"
   ],
   "note": "Chances are iterated upper integrals over the draws in program order (equal to the usual integrals for measurable functions, upper_eq), so no measurability is assumed of the fitness or the other operators. Exact real arithmetic; fitness deterministic, single objective, finite bounds on every gene. C153_needs_elitism shows the condition is necessary. Searches without elitism: the reported best, C171."
  },
  {
   "property": "C154",
   "status": "proved",
   "theorems": [
    "EvoTorch.Optimizers.C154_clipup_distance",
    "EvoTorch.Optimizers.C154_clipup_directions",
    "EvoTorch.Optimizers.C154_clipup_one_direction",
    "EvoTorch.Optimizers.C154_sgd_constant",
    "EvoTorch.Optimizers.C154_adam_constant",
    "EvoTorch.Optimizers.C154_adam_bounded"
   ],
   "note": "Exact real arithmetic; stated for the functional optimisers, which visit the same centers as the classes (C53). Adam's bound needs beta1^2 < beta2, which the defaults meet."
  },
  {
   "property": "C155",
   "status": "partial",
   "theorems": [
    "EvoTorch.BatchDims.C155_reads_iff_partial",
    "EvoTorch.BatchDims.C155_set_partial",
    "EvoTorch.BatchDims.C155_violated_error",
    "EvoTorch.BatchDims.C155_violated_wrong_item",
    "EvoTorch.BatchDims.C155_violated_shape",
    "EvoTorch.BatchDims.C155_snapshot_partial",
    "EvoTorch.BatchDims.C155_violated_snapshot",
    "EvoTorch.BatchDims.C155_violated_list_snapshot",
    "EvoTorch.BatchDims.C155_keys_partial",
    "EvoTorch.BatchDims.C155_violated_masked_key",
    "EvoTorch.BatchDims.C155_violated_is_batched"
   ],
   "note": "Reading is right for all contents and keys exactly if all leading batch sizes are 1 (C155_reads_iff_partial), writing too (C155_set_partial). Otherwise the code raises IndexError, reads other batch positions or returns another shape (C155_violated_*). Reads of unbatched memories and lists are views (C155_violated_snapshot, C155_violated_list_snapshot). Values with a shape, and all masks of memories whose leading batch sizes are 1, are in C166."
  },
  {
   "property": "C156",
   "status": "partial",
   "theorems": [
    "EvoTorch.CMAES.C156_accepted_partial",
    "EvoTorch.CMAES.C156_refused",
    "EvoTorch.CMAES.C156_violated_one_variable",
    "EvoTorch.CMAES.C156_violated_given_center",
    "EvoTorch.CMAES.C156_violated_popsize_one"
   ],
   "note": "Accepted for solutions with at least two elements, of problems that can generate solutions (C156_accepted_partial). Violated: problems with one variable are always refused; a problem without initial bounds is refused even with a given center; a population size of 1 is accepted but undefined."
  },
  {
   "property": "C157",
   "status": "partial",
   "theorems": [
    "EvoTorch.FreezeIter.C157_alive_partial",
    "EvoTorch.FreezeIter.C157_first_at_address",
    "EvoTorch.FreezeIter.C157_violated_items",
    "EvoTorch.FreezeIter.C157_violated_dictionary"
   ],
   "note": "Proved for every iterable whose items all exist at one moment (lists, tuples, with any sharing). The code violates the rest: the memo of as_immutable is keyed by id(item) but does not keep the item alive, so an item made at the address of a discarded one gets the result of that one. For d.items(), zip and enumerate, whose iterators fill their tuple anew, every other element of the result is the first tuple again, for every dictionary of three items or more (C157_violated_*)."
  },
  {
   "property": "C158",
   "status": "partial",
   "theorems": [
    "EvoTorch.SharedNet.C158_gym_partial",
    "EvoTorch.SharedNet.C158_mode_irrelevant",
    "EvoTorch.SharedNet.C158_violated_mode",
    "EvoTorch.SharedNet.C158_violated_clock",
    "EvoTorch.SharedNet.C158_exported_training",
    "EvoTorch.SharedNet.C158_violated_export",
    "EvoTorch.SharedNet.C158_supervised",
    "EvoTorch.SharedNet.C158_given_partial",
    "EvoTorch.SharedNet.C158_violated_given"
   ],
   "note": "Proved for GymNE without observation normalisation and noise, and for SupervisedNE, for every network whose outputs depend on what it keeps only through something that calls do not change. Violated: LocomotorNet's clock is not reset between episodes and solutions; run leaves the given policy in training mode; exported networks are in training mode although evaluated in evaluation mode; a module given as the network ends with the parameters of the last solution."
  },
  {
   "property": "C159",
   "status": "partial",
   "theorems": [
    "EvoTorch.Unchecked.C159_list_same_partial",
    "EvoTorch.Unchecked.C159_list_lenient",
    "EvoTorch.Unchecked.C159_violated_default",
    "EvoTorch.Unchecked.C159_memory_same",
    "EvoTorch.Unchecked.C159_memory_wraps",
    "EvoTorch.Unchecked.C159_dict_same",
    "EvoTorch.Unchecked.C159_bag_same"
   ],
   "note": "Histories accepted by verify=True agree exactly for CMemory, CDict, CBag, and for CList when the keys given together with a default lie in [-max_length, max_length). C159_list_lenient describes every history of an unverified CList of capacity at least 2, also those the verifying list refuses. Violated: get with a default answers an index far outside of the list with an element instead of the default (C159_violated_default)."
  },
  {
   "property": "C160",
   "status": "partial",
   "theorems": [
    "EvoTorch.Interrupt.C160_re_evaluating",
    "EvoTorch.Interrupt.C160_not_re_evaluating_partial",
    "EvoTorch.Interrupt.C160_map_elites_partial",
    "EvoTorch.Interrupt.C160_violated_stuck",
    "EvoTorch.Interrupt.C160_evaluated_otherwise",
    "EvoTorch.Interrupt.C160_cosyne_partial",
    "EvoTorch.Interrupt.C160_violated_cosyne",
    "EvoTorch.Interrupt.C160_gaussian_first_partial",
    "EvoTorch.Interrupt.C160_violated_gaussian",
    "EvoTorch.Interrupt.C160_results_stay",
    "EvoTorch.Interrupt.C160_violated_adaptive",
    "EvoTorch.Interrupt.C160_distributed",
    "EvoTorch.Interrupt.C160_cmaes"
   ],
   "note": "Proved for every history of completed and interrupted calls ending with a completed one: re_evaluate=True (GA, SteadyStateGA, MAPElites), distributed Gaussian searches, CMA-ES; for re_evaluate=False and Cosyne when the evaluation of the initial population was not interrupted; for Gaussian searches when the interruptions come before the first completed step. The rest is false of the code: C160_violated_stuck (the population stays the initial, unevaluated one for ever), C160_violated_cosyne, C160_violated_gaussian, C160_violated_adaptive. Interruptions other than by the fitness function or the operators are not modelled."
  },
  {
   "property": "C161",
   "status": "partial",
   "theorems": [
    "EvoTorch.Rounding.C161_uniform",
    "EvoTorch.Rounding.C161_compare",
    "EvoTorch.Rounding.C161_violation",
    "EvoTorch.Rounding.C161_pieces_partial",
    "EvoTorch.Rounding.C161_share_partial",
    "EvoTorch.Rounding.C161_violated_share",
    "EvoTorch.Rounding.C161_take_best",
    "EvoTorch.Rounding.C161_ranking",
    "EvoTorch.Rounding.C161_stdev_limits",
    "EvoTorch.Rounding.C161_stdev_positive",
    "EvoTorch.Rounding.C161_violated_stdev",
    "EvoTorch.Rounding.C161_running_exact",
    "EvoTorch.Rounding.C161_violated_variance"
   ],
   "note": "Bounds of uniform draws, comparisons, constraint violations, fronts in take_best and the order of ranking weights are proved for every format and every rounding to the nearest, and for runs of any length the limits of the standard deviation (C161_stdev_limits) and its positivity if less than half may be taken away (C161_stdev_positive). False in floating point: a share of a population (0.29 of 100 is 28: C161_violated_share; it may be one less: C161_share_partial); positivity if three quarters may be taken away (C161_violated_stdev); the variance of equal observations (C161_violated_variance), the sums being exact for whole numbers while they are small (C161_running_exact). Pieces: batches of up to 2^53 solutions. Overflow to infinity and division by reciprocals (CUDA) are not modelled."
  },
  {
   "property": "C162",
   "status": "partial",
   "theorems": [
    "EvoTorch.Chances.C162_randint",
    "EvoTorch.Chances.C162_randint_independent",
    "EvoTorch.Chances.C162_violated_randint",
    "EvoTorch.Chances.C162_uniform_int",
    "EvoTorch.Chances.C162_uniform_bit",
    "EvoTorch.Chances.C162_gaussian_mutation",
    "EvoTorch.Chances.C162_violated_zero_probability",
    "EvoTorch.Chances.C162_polynomial_mutation",
    "EvoTorch.Chances.C162_cosyne_mask",
    "EvoTorch.Chances.C162_one_point",
    "EvoTorch.Chances.C162_multi_point",
    "EvoTorch.Chances.C162_cosyne_orders",
    "EvoTorch.Chances.C162_bag_orders"
   ],
   "note": "Proved exactly, by counting, for every dtype, bound, shape, probability, mask, cut count and bag: shares of random integers (up to the number of words divided by n, exact when n divides it), independence of elements and genes, chances of mutation, cross-over, Cosyne selection, Cosyne rearrangements and bag orders. False of the code in two places, with theorems: in a small dtype the remainder makes small values up to twice as likely (C162_violated_randint), and GaussianMutation compares with <=, so a mutation probability of zero still mutates when the draw is exactly zero (C162_violated_zero_probability). Orders assume the argsort of continuous noise is a uniformly random permutation (no ties)."
  },
  {
   "property": "C163",
   "status": "partial",
   "theorems": [
    "EvoTorch.StatusHistory.C163_reports_stay_partial",
    "EvoTorch.StatusHistory.C163_listed_solutions_stay",
    "EvoTorch.StatusHistory.C163_violated_lists"
   ],
   "note": "Proved for all histories of memory actions of which the steps consist. Violated for several objectives (C163_violated_lists): the reported lists of best and worst solutions are the lists the problem goes on modifying; the solutions in them stay (C163_listed_solutions_stay)."
  },
  {
   "property": "C164",
   "status": "partial",
   "theorems": [
    "EvoTorch.Rounding.C164_few_bins",
    "EvoTorch.Rounding.C164_ends",
    "EvoTorch.Rounding.C164_edges_partial",
    "EvoTorch.Rounding.C164_covers",
    "EvoTorch.Rounding.C164_exactly_one_cell_partial",
    "EvoTorch.Rounding.C164_violated_double",
    "EvoTorch.Rounding.C164_violated_order"
   ],
   "note": "For bounds that are numbers of torch's default dtype: the outer edges are the bounds, every vector is in some cell, and in exactly one if it is on no edge and the bounds are not as close together as the smallest numbers (violated otherwise: C164_violated_order). Violated for dtype=torch.float64: linspace is called without the dtype, so the edges are rounded to float32 and a feature above the upper bound can be in the bin below it (C164_violated_double)."
  },
  {
   "property": "C165",
   "status": "partial",
   "theorems": [
    "EvoTorch.SearchTypes.C165_cem_initial",
    "EvoTorch.SearchTypes.C165_pgpe_initial",
    "EvoTorch.SearchTypes.C165_cem_accepts",
    "EvoTorch.SearchTypes.C165_pgpe_accepts",
    "EvoTorch.SearchTypes.C165_cem_history",
    "EvoTorch.SearchTypes.C165_pgpe_history",
    "EvoTorch.SearchTypes.C165_cem_generations",
    "EvoTorch.SearchTypes.C165_pgpe_generations",
    "EvoTorch.SearchTypes.C165_told_populations_widen",
    "EvoTorch.SearchTypes.C165_pgpe_evaluations_device",
    "EvoTorch.SearchTypes.C165_radius_exactly",
    "EvoTorch.SearchTypes.C165_violated_radius_half",
    "EvoTorch.SearchTypes.C165_violated_radius_cuda",
    "EvoTorch.SearchTypes.C165_violated_integer_center",
    "EvoTorch.SearchTypes.C165_violated_integer_sgd"
   ],
   "note": "Tensors are reduced to dtype, device and shape (or whether they have a dimension), with PyTorch's promotion and device rules as part of the model. With stdev_init everything holds for floating point centers. With radius_init it is false of the code: the standard deviation is multiplied with torch.ones(n) of the default dtype and device, so that a half precision center gives a state whose every tell raises, and a center on a CUDA device none at all (C165_violated_radius_half, C165_violated_radius_cuda; C165_radius_exactly says when it holds). Centers of integers are refused by default, and sgd with integers never moves (C165_violated_integer_center, C165_violated_integer_sgd)."
  },
  {
   "property": "C166",
   "status": "partial",
   "theorems": [
    "EvoTorch.MemoryShapes.C166_constructor",
    "EvoTorch.MemoryShapes.C166_get",
    "EvoTorch.MemoryShapes.C166_update_partial",
    "EvoTorch.MemoryShapes.C166_update_bool",
    "EvoTorch.MemoryShapes.C166_subtract_partial",
    "EvoTorch.MemoryShapes.C166_violated_sequences"
   ],
   "note": "C166_constructor and C166_get in full; C166_update_bool in full for booleans apart from the guards below. Violated: subtract_ and divide_ refuse lists and tuples, which add_ and multiply_ accept (C166_violated_sequences); multiply_ and divide_ without a mask add (C05); a mask with one common key of several coordinates is refused (C155); unselected keys have to be indexable (C04). Limits of the model: batch shapes of at most one dimension up to leading sizes of 1, non-empty batches; other batch shapes are in C155."
  },
  {
   "property": "C167",
   "status": "partial",
   "theorems": [
    "EvoTorch.SeededDevices.C167_local",
    "EvoTorch.SeededDevices.C167_gradients_partial",
    "EvoTorch.SeededDevices.C167_actors_partial",
    "EvoTorch.SeededDevices.C167_violated_aux_device",
    "EvoTorch.SeededDevices.C167_violated_second_request",
    "EvoTorch.SeededDevices.C167_violated_actors"
   ],
   "note": "Proved in full for making solutions and for searches that are not distributed (C167_local). Violated, with a generator of its own: requests for gradients are refused if the temporary solutions are on another type of device (C167_gradients_partial is exact; C167_violated_aux_device, C167_violated_second_request), and no actor can be started, because EvaluationActor.__init__ calls Problem.seed, which does not exist (C167_violated_actors). PyTorch's rule that a generator serves one type of device is an assumption. Restricted to problems whose _evaluate_all is not decorated (C106)."
  },
  {
   "property": "C168",
   "status": "proved",
   "theorems": [
    "EvoTorch.BoundedRuns.C168_genetic_algorithm",
    "EvoTorch.BoundedRuns.C168_cosyne",
    "EvoTorch.BoundedRuns.C168_map_elites",
    "EvoTorch.BoundedRuns.C168_no_new_genes"
   ],
   "note": "Invariant over runs: C168_genetic_algorithm (populations and all solutions the next step evaluates), C168_cosyne, C168_map_elites, and C168_no_new_genes for runs without mutation. Polynomial mutation is assumed to be used where every lower bound is below its upper bound (without this it yields NaN: C26_violated_polynomial); that the first population is within the bounds is C94's subject. Exact arithmetic; what rounding does to SBX and polynomial mutation is not covered."
  },
  {
   "property": "C169",
   "status": "partial",
   "theorems": [
    "EvoTorch.Budget.C169_record",
    "EvoTorch.Budget.C169_settings",
    "EvoTorch.Budget.C169_budget",
    "EvoTorch.Budget.C169_budget_map_elites",
    "EvoTorch.Budget.C169_budget_cosyne",
    "EvoTorch.Budget.C169_fresh_partial",
    "EvoTorch.Budget.C169_once",
    "EvoTorch.Budget.C169_cosyne_fresh",
    "EvoTorch.Budget.C169_operators_see_evaluations",
    "EvoTorch.Budget.C169_operators_see_fresh",
    "EvoTorch.Budget.C169_violated_stale",
    "EvoTorch.Budget.C169_violated_order"
   ],
   "note": "Budgets (C169_budget, C169_budget_map_elites, C169_budget_cosyne), evaluation once (C169_once), settings (C169_settings) and what the operators see (C169_operators_see_evaluations, C169_operators_see_fresh) are proved for all runs. Freshness is proved except for searches that are not elitist, evaluate parents and children together and make fewer children than popsize, where it is false (C169_violated_stale). A cross-over that comes after a mutation is shown no evaluations and chooses parents without regard to fitness (C169_violated_order)."
  },
  {
   "property": "C170",
   "status": "proved",
   "theorems": [
    "EvoTorch.Illumination.C170_rate",
    "EvoTorch.Illumination.C170_converges",
    "EvoTorch.Illumination.C170_all_cells"
   ],
   "note": "Exact arithmetic over the reals; the draws are independent uniform and normal numbers, and the chance is an upper integral (no measurability of the run is assumed), as in C153. Deterministic evaluation."
  },
  {
   "property": "C171",
   "status": "proved",
   "theorems": [
    "EvoTorch.ReportedBest.C171_rate",
    "EvoTorch.ReportedBest.C171_rate_cosyne",
    "EvoTorch.ReportedBest.C171_converges",
    "EvoTorch.ReportedBest.C171_converges_cosyne"
   ],
   "note": "Composes the models of C22/C25 (steps), C169 (what is evaluated), C11 (statistics) and C26 (mutation). Exact arithmetic over the reals, deterministic fitness, upper integrals over independent draws as in C153. C153_needs_elitism shows that the population itself need not keep the optimum."
  },
  {
   "property": "C172",
   "status": "partial",
   "theorems": [
    "EvoTorch.CMAES.C172_full",
    "EvoTorch.CMAES.C172_full_step",
    "EvoTorch.CMAES.C172_full_run",
    "EvoTorch.CMAES.C172_separable_partial",
    "EvoTorch.CMAES.C172_violated_stalled",
    "EvoTorch.CMAES.C172_violated_active"
   ],
   "note": "Proved for the full covariance: a whole run without the rank-one update keeps the mean covariance (C172_full_run, C172_full_step), and a generation with both updates keeps it up to 1e-23, given whether the path stalls (C172_full). The decision to stall is taken as given, since it depends on the same draws. Violated for separable searches: with 'active' (the default) every variance grows on average (C172_violated_active: the rescaled negative weights are also applied to what is taken away, cmaes.py 540-542), and when the path stalls every variance shrinks (C172_violated_stalled: cmaes.py 538 leaves out weighted_pc). C172_separable_partial: not active and not stalled."
  },
  {
   "property": "C173",
   "status": "proved",
   "theorems": [
    "EvoTorch.NeutralSearch.C173_snes",
    "EvoTorch.NeutralSearch.C173_pgpe",
    "EvoTorch.NeutralSearch.C173_xnes",
    "EvoTorch.NeutralSearch.C173_cem",
    "EvoTorch.NeutralSearch.C173_cem_stdev_shrinks",
    "EvoTorch.NeutralSearch.C173_snes_run",
    "EvoTorch.NeutralSearch.C173_xnes_run",
    "EvoTorch.NeutralSearch.C173_pgpe_run",
    "EvoTorch.NeutralSearch.C173_cem_run",
    "EvoTorch.NeutralSearch.C173_flat"
   ],
   "note": "For given fitnesses (any list) and normal draws: C173_pgpe (both samplers, all divisors), C173_snes, C173_xnes and C173_cem for a generation, the _run theorems for any number of generations, C173_flat for flat fitness functions. C173_cem_stdev_shrinks: although the variance of CEM is unchanged on average, its standard deviation is on average strictly smaller after a generation. Exact arithmetic; no limits on the standard deviation, no optimiser. Where the code divides by zero (fitnesses all equal with the ranking 'normalized', utilities all zero divided by their total), it yields NaN, which the model does not represent."
  },
  {
   "property": "C174",
   "status": "proved",
   "theorems": [
    "EvoTorch.LinearProgress.C174_pgpe",
    "EvoTorch.LinearProgress.C174_snes",
    "EvoTorch.LinearProgress.C174_xnes",
    "EvoTorch.LinearProgress.C174_pgpe_run",
    "EvoTorch.LinearProgress.C174_snes_run",
    "EvoTorch.LinearProgress.C174_xnes_run",
    "EvoTorch.LinearProgress.C174_snes_linear_can_worsen",
    "EvoTorch.LinearProgress.C174_cem",
    "EvoTorch.LinearProgress.C174_cem_average",
    "EvoTorch.LinearProgress.C174_cma",
    "EvoTorch.LinearProgress.C174_cma_full_average",
    "EvoTorch.LinearProgress.C174_cma_separable_average"
   ],
   "note": "Exact arithmetic; plain learning rates (no optimiser), no limits on the standard deviation. For raw and normalized the theorems are per generation, as equal fitnesses make the code divide by zero. CMA-ES: without active, or with learning rates c_1 + c_mu <= 1, which the defaults of the non-separable variant satisfy (for other rates see C71)."
  },
  {
   "property": "C175",
   "status": "proved",
   "theorems": [
    "EvoTorch.SphereConvergence.C175_pgpe_mean",
    "EvoTorch.SphereConvergence.C175_pgpe_square",
    "EvoTorch.SphereConvergence.C175_pgpe_run_mean",
    "EvoTorch.SphereConvergence.C175_pgpe_run_square",
    "EvoTorch.SphereConvergence.C175_pgpe_converges",
    "EvoTorch.SphereConvergence.C175_pgpe_diverges",
    "EvoTorch.SphereConvergence.C175_pgpe_best_rate",
    "EvoTorch.SphereConvergence.C175_pgpe_spread"
   ],
   "note": "Exact arithmetic, independent standard normal draws, no optimiser (plain learning rates) and no limits on the standard deviation; the runs have stdev_learning_rate = 0. The mean statement is for any curvatures and standard deviations, the per-generation mean square too (C175_pgpe_square); the closed form over runs is for equal ones. For the rank-based rankings see C174 (linear functions) and C173 (no information)."
  },
  {
   "property": "C176",
   "status": "partial",
   "theorems": [
    "EvoTorch.LinearProgress.C176_clipup_run",
    "EvoTorch.LinearProgress.C176_clipup_better",
    "EvoTorch.LinearProgress.C176_sgd_run",
    "EvoTorch.LinearProgress.C176_adam_violated",
    "EvoTorch.LinearProgress.C176_clipup_flat_violated"
   ],
   "note": "ClipUp: whole runs never get worse (C176_clipup_run), informative generations get strictly better and not NaN (C176_clipup_better). SGD with momentum, dampening and Nesterov: C176_sgd_run. The code violates the rest: Adam's per-coordinate scaling can make the center worse (C176_adam_violated), and with raw fitnesses a generation of equally good solutions makes the center NaN with ClipUp (C176_clipup_flat_violated)."
  },
  {
   "property": "C177",
   "status": "proved",
   "theorems": [
    "EvoTorch.LinearProgress.C177_run",
    "EvoTorch.LinearProgress.C177_clipup_run",
    "EvoTorch.LinearProgress.C177_clipup_better",
    "EvoTorch.LinearProgress.C177_sgd_run",
    "EvoTorch.LinearProgress.C177_raw_same",
    "EvoTorch.LinearProgress.C177_raw_run"
   ],
   "note": "C177_run (no optimiser), C177_clipup_run and C177_clipup_better, C177_sgd_run on linear functions; C177_raw_same and C177_raw_run for the raw fitnesses. Adam is left out, as in C176 (C176_adam_violated)."
  },
  {
   "property": "C178",
   "status": "proved",
   "theorems": [
    "EvoTorch.MomentumAverage.C178_average_run",
    "EvoTorch.MomentumAverage.C178_average_plain",
    "EvoTorch.MomentumAverage.C178_average_converges",
    "EvoTorch.MomentumAverage.C178_average_converges_nesterov",
    "EvoTorch.MomentumAverage.C178_limit_sharp"
   ],
   "note": "Exact averages over the normal draws (averageAfter iterates the Bochner integral over fresh draws per generation). momentumStep and firstStep are the specification. The convergence theorems follow from a Lyapunov function for second-order recursions. Fitnesses and updates are real numbers; torch.optim.SGD is modelled from its documented rule."
  },
  {
   "property": "C179",
   "status": "partial",
   "theorems": [
    "EvoTorch.LinearProgress.C179_snes_clipup_run",
    "EvoTorch.LinearProgress.C179_snes_sgd_run",
    "EvoTorch.LinearProgress.C179_snes_dist_run",
    "EvoTorch.LinearProgress.C179_snes_dist_better",
    "EvoTorch.LinearProgress.C179_snes_dist_clipup_run",
    "EvoTorch.LinearProgress.C179_cem_dist",
    "EvoTorch.LinearProgress.C179_cem_numbers",
    "EvoTorch.LinearProgress.C179_cem_violated"
   ],
   "note": "The last sentence is violated by distributed CEM (C179_cem_violated): floor(n * parenthood_ratio) is taken for each actor, so 20 solutions with ratio 0.1 have two elites locally and none with 4 actors, which makes the center NaN; C179_cem_numbers says exactly when there are numbers. All else is proved. Exact arithmetic; no limits on the standard deviation; XNES cannot run distributed (C80)."
  },
  {
   "property": "C180",
   "status": "proved",
   "theorems": [
    "EvoTorch.LinearProgress.C180_pgpe_distributed",
    "EvoTorch.LinearProgress.C180_snes_distributed",
    "EvoTorch.NeverNan.C180_pgpe",
    "EvoTorch.NeverNan.C180_snes"
   ],
   "note": "Probability one is over the infinite product of the Gaussian draws of all generations; the exceptional draws do not depend on the fitness function, the center or the standard deviations, so one set of measure zero covers all of them. PGPE with and without mirrored solutions, all ways of dividing the gradient, stdev_min and stdev_max optional; SNES with ClipUp. Distributed searches too, with any shares of the draws that give each actor at least two solutions (SNES: with the rankings nes and centered). That raw fitnesses do make a NaN on a flat function is C176_clipup_flat_violated. Scalar limits."
  },
  {
   "property": "C181",
   "status": "proved",
   "theorems": [
    "EvoTorch.LinearProgress.C181_pgpe",
    "EvoTorch.LinearProgress.C181_pgpe_clipup",
    "EvoTorch.LinearProgress.C181_snes",
    "EvoTorch.LinearProgress.C181_snes_clipup",
    "EvoTorch.LinearProgress.C181_pgpe_distributed",
    "EvoTorch.LinearProgress.C181_pgpe_distributed_clipup",
    "EvoTorch.LinearProgress.C181_snes_distributed",
    "EvoTorch.LinearProgress.C181_snes_distributed_clipup"
   ],
   "note": "Exact arithmetic. Plain learning rate with stdev_min for every non-constant linear function; ClipUp for linear functions that depend on every variable, with default limits. One null set serves all fitness functions. SNES with the rankings nes and centered, whose utilities sum to zero. Distributed searches too, with any shares of the draws that give each actor at least two solutions, and both ways of averaging the gradients."
  },
  {
   "property": "C182",
   "status": "proved",
   "theorems": [
    "EvoTorch.RunningNorm.C182_spoilt",
    "EvoTorch.RunningNorm.C182_others"
   ],
   "note": "Finite arithmetic is exact: overflow to infinity is not modelled. The normalisation with NaN standard deviations is modelled as normalizeStats; on numbers it is the one of C57 (normalizeStats_eq). That rows left out by a mask spoil the coordinate too is C58_violated_masked_nan."
  },
  {
   "property": "C183",
   "status": "proved",
   "theorems": [
    "EvoTorch.Operators.C183_polynomial_law",
    "EvoTorch.Operators.C183_polynomial_anywhere",
    "EvoTorch.Operators.C183_polynomial_eta",
    "EvoTorch.Operators.C183_sbx_law",
    "EvoTorch.Operators.C183_sbx_eta"
   ],
   "note": "Exact arithmetic; chances are Lebesgue measures of sets of draws in the unit interval or cube. Genes whose bounds coincide become NaN (C26_violated_polynomial) and are excluded by the statement."
  },
  {
   "property": "C184",
   "status": "proved",
   "theorems": [
    "EvoTorch.GlobalPolynomial.C184_rate",
    "EvoTorch.GlobalPolynomial.C184_rate_elitist",
    "EvoTorch.GlobalPolynomial.C184_converges",
    "EvoTorch.GlobalPolynomial.C184_converges_elitist",
    "EvoTorch.GlobalPolynomial.C184_mutation_probability"
   ],
   "note": "Exact arithmetic, independent uniform draws; the chance is an iterated upper integral, so nothing has to be measurable. One objective, deterministic fitness. The rate comes from the law of C183, uniformly in the parents."
  },
  {
   "property": "C185",
   "status": "proved",
   "theorems": [
    "EvoTorch.IlluminationPolynomial.C185_rate",
    "EvoTorch.IlluminationPolynomial.C185_converges",
    "EvoTorch.IlluminationPolynomial.C185_all_cells"
   ],
   "note": "Rate, convergence for one cell, and convergence for all cells of a set at once, over independent uniform draws of the mutation and any law of the draws of the operators before it."
  },
  {
   "property": "C186",
   "status": "proved",
   "theorems": [
    "EvoTorch.ParetoReports.C186_rate",
    "EvoTorch.ParetoReports.C186_converges",
    "EvoTorch.ParetoReports.C186_all_objectives"
   ],
   "note": "Chance after k generations that the reported best of an objective is not as good as the points of a box is at most (1 - delta)^k; convergence for each objective and for all at once, with either mutation, in every mode of the search. Real arithmetic, ideal uniform and normal draws, deterministic fitness without NaN; take_best in the non-elitist mode is any choice."
  },
  {
   "property": "C187",
   "status": "partial",
   "theorems": [
    "EvoTorch.FunctionalBuffers.C187_calls",
    "EvoTorch.FunctionalBuffers.C187_network",
    "EvoTorch.FunctionalBuffers.C187_violated_buffers"
   ],
   "note": "Calls and the network's own buffers: proved for all histories. The property buffers gives the names of the buffers instead of the buffers (C187_violated_buffers)."
  }
 ]
}
