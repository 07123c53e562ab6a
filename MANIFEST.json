{
 "claims": [
  {
   "property": "C01",
   "status": "proved",
   "theorems": [
    "Suprb.C01_ordered",
    "Suprb.C01_unordered",
    "Suprb.C01_unordered_swap",
    "Suprb.C01_centerSpread",
    "Suprb.C01_minPercentage"
   ],
   "note": "All four representations, any dimension."
  },
  {
   "property": "C02",
   "status": "proved",
   "theorems": [
    "Suprb.C02_ordered",
    "Suprb.C02_inside"
   ],
   "note": "Ordered and inside the feature bounds after min_range and clip."
  },
  {
   "property": "C03",
   "status": "proved",
   "theorems": [
    "Suprb.C03_no_loss",
    "Suprb.C03_exact",
    "Suprb.C03_overlap_needed"
   ],
   "note": "No in-bounds sample is lost; exact equality under the overlap condition, whose necessity is shown."
  },
  {
   "property": "C04",
   "status": "partial",
   "theorems": [
    "Suprb.C04_refuted",
    "Suprb.C04_minRange_partial",
    "Suprb.C04_combined_partial",
    "Suprb.C04_refuted_zero_width",
    "Suprb.C04_pool_partial",
    "Suprb.C04_pool_refuted"
   ],
   "note": "False in the code: clip runs after min_range, so rules at the edge end up narrower (witnesses, also in the pool of a whole run). Proved: min_range alone gives the floor, half of it survives for in-bounds rules, and in the pool of every run every dimension with training samples on both sides has the full width."
  },
  {
   "property": "C05",
   "status": "partial",
   "theorems": [
    "Suprb.C05_refuted",
    "Suprb.C05_partial"
   ],
   "note": "False in the code: UnorderedBound.clip discards its result (witness). Proved: rules already inside stay inside, and samples inside the bounds are matched as if the rule had been clipped."
  },
  {
   "property": "C06",
   "status": "partial",
   "theorems": [
    "Suprb.C06_refuted_narrows",
    "Suprb.C06_refuted_narrows'",
    "Suprb.C06_refuted_wrong_dimension",
    "Suprb.C06_one_dim_exact",
    "Suprb.C06_degenerate_partial"
   ],
   "note": "False in the code: wrong direction and wrong rows (witnesses in one and two dimensions). Proved: exact one-dimensional effect, and correct behaviour on degenerate rules."
  },
  {
   "property": "C07",
   "status": "proved",
   "theorems": [
    "Suprb.C07_centerSpread_clip",
    "Suprb.C07_minPercentage_clip",
    "Suprb.C07_centerSpread_no_loss"
   ],
   "note": "Centre/spread and minimum/percentage clipping."
  },
  {
   "property": "C08",
   "status": "partial",
   "theorems": [
    "Suprb.C08_exact",
    "Suprb.C08_refuted",
    "Suprb.C08_partial"
   ],
   "note": "False in the code; exact characterisation of the origins that are matched, witness and the true part."
  },
  {
   "property": "C09",
   "status": "partial",
   "theorems": [
    "Suprb.C09_ordered",
    "Suprb.C09_ordered_mono",
    "Suprb.C09_unordered",
    "Suprb.C09_centerSpread",
    "Suprb.C09_minPercentage_refuted",
    "Suprb.C09_minPercentage_partial",
    "Suprb.C09_minPercentage_one_dim"
   ],
   "note": "True for ordered, unordered and centre/spread rules; false for minimum/percentage rules (witness), with the exact case in which it holds."
  },
  {
   "property": "C10",
   "status": "partial",
   "theorems": [
    "Suprb.C10_ordered_mean_partial",
    "Suprb.C10_ordered_halfnorm_partial",
    "Suprb.C10_unordered_mean_partial",
    "Suprb.C10_centerSpread_mean_partial",
    "Suprb.C10_unordered_halfnorm_refuted",
    "Suprb.C10_centerSpread_refuted",
    "Suprb.C10_experience_partial"
   ],
   "note": "True for ordered (mean, half-normal), unordered (mean) and centre/spread (mean, feature bounds within [-1, 1]) rules; false for unordered rules with half-normal initialisation and for centre/spread rules with other feature bounds (witnesses)."
  },
  {
   "property": "C11",
   "status": "proved",
   "theorems": [
    "Suprb.C11_never_inverted"
   ],
   "note": "Invariant over an inductive relation of all operator histories."
  },
  {
   "property": "C12",
   "status": "partial",
   "theorems": [
    "Suprb.C12_step",
    "Suprb.C12_increase_never_loses_partial",
    "Suprb.C12_minPercentage_refuted",
    "Suprb.C12_centerSpread_refuted"
   ],
   "note": "True for ordered rules and any chain of mutations; false for minimum/percentage and centre/spread rules (witnesses)."
  },
  {
   "property": "C13",
   "status": "partial",
   "theorems": [
    "Suprb.C13_objects_partial",
    "Suprb.C13_refuted",
    "Suprb.C13_swap_partial",
    "Suprb.C13_exact_partial",
    "Suprb.C13_common_samples_partial"
   ],
   "note": "For ordered bounds: exact child intervals for each mask, common samples stay matched, parents unchanged. Refuted for the other three matching types, for which crossover raises a TypeError."
  },
  {
   "property": "C14",
   "status": "proved",
   "theorems": [
    "Suprb.C14_unmatched",
    "Suprb.C14_matched"
   ],
   "note": "Unmatched and matched branch, in terms of the filtered training pairs."
  },
  {
   "property": "C15",
   "status": "proved",
   "theorems": [
    "Suprb.C15_history",
    "Suprb.C15_refit_same"
   ],
   "note": "Induction over arbitrary histories with a fixed number of samples; idempotence of refitting."
  },
  {
   "property": "C16",
   "status": "partial",
   "theorems": [
    "Suprb.C16_refuted",
    "Suprb.C16_partial",
    "Suprb.C16_clone_partial",
    "Suprb.C16_size_change_refuted",
    "Suprb.C16_single_sample_refuted",
    "Suprb.C16_single_sample_partial"
   ],
   "note": "False in the code: the cache compares match sets only (witness), and a changed sample count is an exception. Proved for fresh rules, clones and changed match sets."
  },
  {
   "property": "C17",
   "status": "proved",
   "theorems": [
    "Suprb.C17_convex"
   ],
   "note": "Default filter; experience calculations that keep positive experience positive (default and caps)."
  },
  {
   "property": "C18",
   "status": "proved",
   "theorems": [
    "Suprb.C18_only_matching"
   ],
   "note": "Two arbitrary models agreeing on the matching selected rules, two arbitrary batches."
  },
  {
   "property": "C19",
   "status": "proved",
   "theorems": [
    "Suprb.C19_order_invariant"
   ],
   "note": "Exact arithmetic: floating point summation order is not modelled."
  },
  {
   "property": "C20",
   "status": "partial",
   "theorems": [
    "Suprb.C20_cached_eq_uncached_partial",
    "Suprb.C20_default_filter_partial",
    "Suprb.C20_refuted"
   ],
   "note": "False if a rule was fitted on other data with the same match set before (witness: stale stored predictions). Proved for rules fitted (any number of times) on the training data only, as within one SupRB.fit; every filter."
  },
  {
   "property": "C21",
   "status": "proved",
   "theorems": [
    "Suprb.C21_filters",
    "Suprb.C21_weight_irrelevant"
   ],
   "note": "For every experience calculation (also ones that yield zero or negative values), every filter and every pool of usable rules."
  },
  {
   "property": "C22",
   "status": "partial",
   "theorems": [
    "Suprb.C22_partial",
    "Suprb.C22_refuted",
    "Suprb.C22_zero_keeps_all_refuted"
   ],
   "note": "False for rule_amount = 0 (everything is kept). Proved for rule_amount >= 1."
  },
  {
   "property": "C23",
   "status": "proved",
   "theorems": [
    "Suprb.C23_zero_pad",
    "Suprb.C23_zero_pad_fit",
    "Suprb.C23_random_pad",
    "Suprb.C23_init_lengths"
   ],
   "note": "Zero and random padding, initialisation lengths, fitted statistics."
  },
  {
   "property": "C24",
   "status": "proved",
   "theorems": [
    "Suprb.C24_statistics",
    "Suprb.C24_selection",
    "Suprb.C24_selected_iff"
   ],
   "note": ""
  },
  {
   "property": "C25",
   "status": "proved",
   "theorems": [
    "Suprb.C25_fit",
    "Suprb.C25_cleanup"
   ],
   "note": "Every filter and caching mode; idempotent. Whole calls of fit with and without cleanup."
  },
  {
   "property": "C26",
   "status": "partial",
   "theorems": [
    "Suprb.C26_pacc_range_partial",
    "Suprb.C26_pacc_strict_partial",
    "Suprb.C26_emary_partial",
    "Suprb.C26_wu_refuted",
    "Suprb.C26_wu_partial"
   ],
   "note": "Proved over the reals, except that wu is 0/0 (NaN) when both objectives are 0 (C26_wu_refuted)."
  },
  {
   "property": "C27",
   "status": "proved",
   "theorems": [
    "Suprb.C27_range",
    "Suprb.C27_strict",
    "Suprb.C27_zero_length"
   ],
   "note": "Both complexity based fitnesses; the zero maximum genome length is an error."
  },
  {
   "property": "C28",
   "status": "partial",
   "theorems": [
    "Suprb.C28_range_partial",
    "Suprb.C28_strict_partial",
    "Suprb.C28_pseudoAccuracy_partial",
    "Suprb.C28_refuted",
    "Suprb.C28_degenerate_refuted",
    "Suprb.C28_kinds_partial",
    "Suprb.C28_kinds_strict_partial",
    "Suprb.C28_percentage_refuted"
   ],
   "note": "False: VolumeWu is 0 for every rule of volume 0 regardless of its error; NaN if a feature is constant; minimum/percentage rules inside the input space can exceed 100. The rest is proved for all matching types (minimum/percentage: percentages at most half of the width of the input space)."
  },
  {
   "property": "C29",
   "status": "proved",
   "theorems": [
    "Suprb.C29_error",
    "Suprb.C29_complexity",
    "Suprb.C29_defined"
   ],
   "note": ""
  },
  {
   "property": "C30",
   "status": "proved",
   "theorems": [
    "Suprb.C30_pool_accepted",
    "Suprb.C30_variance",
    "Suprb.C30_max_error",
    "Suprb.C30_es_rules",
    "Suprb.C30_ns_rules",
    "Suprb.C30_rs_rules",
    "Suprb.C30_run",
    "Suprb.C30_run_es",
    "Suprb.C30_run_rs",
    "Suprb.C30_run_ns"
   ],
   "note": "Pool invariant for every sequence of raw discovery outcomes; variance and max-error acceptance give the stated bounds for rules trained on the data; rules of the evolution strategy, random search and novelty search are trained and accepted, and so are all rules in the pool that any fit with them leaves behind (completed, failed or aborted, all settings and draws). The mean squared error bound holds because error_ is at least the MSE."
  },
  {
   "property": "C31",
   "status": "proved",
   "theorems": [
    "Suprb.C31_rules",
    "Suprb.C31_never_worse",
    "Suprb.C31_monotone",
    "Suprb.C31_best_of_children",
    "Suprb.C31_settings"
   ],
   "note": "For all children, draws and numbers of generations (abstract child function); fitness in any linear order. C31_rules states it for the rules and the fitness_ attribute of the configured strategies, C31_settings for every initialisation, mutation and constraint."
  },
  {
   "property": "C32",
   "status": "partial",
   "theorems": [
    "Suprb.C32_strategies_partial",
    "Suprb.C32_window_partial",
    "Suprb.C32_delay_one_partial",
    "Suprb.C32_delay_zero_partial",
    "Suprb.C32_refuted"
   ],
   "note": "Window optimality, generation bound and delay 1 hold, also for the strategies as configured; the clause 'none of the rules selected since is fitter' is false for the child selected in the stopping generation (C32_refuted). delay 0 is an IndexError."
  },
  {
   "property": "C33",
   "status": "proved",
   "theorems": [
    "Suprb.C33_strategies",
    "Suprb.C33_initial_or_experienced",
    "Suprb.C33_settings"
   ],
   "note": "For every operator, mutation and selection that returns one of the given rules; C33_strategies for the configured strategies with fittest and roulette wheel selection, C33_settings for every setting of the evolution strategy."
  },
  {
   "property": "C34",
   "status": "proved",
   "theorems": [
    "Suprb.C34_origin_kept",
    "Suprb.C34_settings"
   ],
   "note": "Total correctness: the run succeeds and the result matches origin and all samples of the initial rule. '&' needs delay >= 1 (delay 0 raises, see C32_delay_zero_partial). Half-normal/uniform draws are assumed non-negative. C34_settings: the same for every selection, for half-normal initialisation and for every constraint whose bounds contain the data, if the run returns a rule."
  },
  {
   "property": "C35",
   "status": "proved",
   "theorems": [
    "Suprb.C35_schedule_irrelevant",
    "Suprb.C35_parallel_eq_sequential",
    "Suprb.C35_schedule_exists"
   ],
   "note": "Tasks as state machines with private state; any finishing interleaving gives the sequential result. joblib itself (ordered result list) is trusted."
  },
  {
   "property": "C36",
   "status": "proved",
   "theorems": [
    "Suprb.C36_matching_probabilities",
    "Suprb.C36_no_rules",
    "Suprb.C36_origins_are_samples",
    "Suprb.C36_drawn",
    "Suprb.C36_uncovered_origins"
   ],
   "note": "For rules fitted on the training samples; the draw returns indices of positive probability. C36_drawn relates the drawn samples to the distribution for all methods of rule discovery."
  },
  {
   "property": "C37",
   "status": "partial",
   "theorems": [
    "Suprb.C37_refuted",
    "Suprb.C37_partial"
   ],
   "note": "False: AttributeError whenever the pool is non-empty and there is no elitist yet (C37_refuted). Holds with an elitist whose genome fits the pool, or an empty pool."
  },
  {
   "property": "C38",
   "status": "proved",
   "theorems": [
    "Suprb.C38_fittest",
    "Suprb.C38_stable"
   ],
   "note": "Including stability for ties."
  },
  {
   "property": "C39",
   "status": "partial",
   "theorems": [
    "Suprb.C39_partial",
    "Suprb.C39_refuted",
    "Suprb.C39_rules_partial",
    "Suprb.C39_several_partial"
   ],
   "note": "False: the list is modified while iterated (C39_refuted). Every Pareto-optimal rule is a candidate, candidates are given rules and never empty. C39_rules_partial states this for the rules of the evolution strategy with all of its settings. For several rules (random search, novelty search) every non-dominated rule can be returned, and only given rules are."
  },
  {
   "property": "C40",
   "status": "proved",
   "theorems": [
    "Suprb.C40_lengths",
    "Suprb.C40_evaluations"
   ],
   "note": "For every metaheuristic satisfying the contract `Strategy.Good` (proved for the genetic algorithm in `gaOptimize_good`)."
  },
  {
   "property": "C41",
   "status": "proved",
   "theorems": [
    "Suprb.C41_best_so_far",
    "Suprb.C41_monotone",
    "Suprb.C41_total",
    "Suprb.C41_padding",
    "Suprb.C41_isolated"
   ],
   "note": "Values: update result is the best of archive and population, fitness never decreases, never an error on fitted populations. Objects: on a heap with object identities the archived solution is a different object whose observable content no later write to population members changes."
  },
  {
   "property": "C42",
   "status": "proved",
   "theorems": [
    "Suprb.C42_monotone",
    "Suprb.C42_complexity_defined",
    "Suprb.C42_complexity_based"
   ],
   "note": "For fitnesses of solutions that depend on error and complexity only (both complexity based fitnesses; PseudoBIC depends on the genome length and is not covered), an archive, and any metaheuristic satisfying `Strategy.Good`."
  },
  {
   "property": "C43",
   "status": "partial",
   "theorems": [
    "Suprb.C43_size_partial",
    "Suprb.C43_refuted"
   ],
   "note": "False: the population has population_size + n_elitists members after an iteration (C43_refuted). Proved: the exact size, for every run."
  },
  {
   "property": "C44",
   "status": "proved",
   "theorems": [
    "Suprb.C44_best_kept"
   ],
   "note": "For every elitist count >= 1 and every number of iterations, each initial individual is matched by a final one at least as fit."
  },
  {
   "property": "C45",
   "status": "partial",
   "theorems": [
    "Suprb.C45_bits",
    "Suprb.C45_unevaluated",
    "Suprb.C45_identical",
    "Suprb.C45_parents_unchanged",
    "Suprb.C45_variants_bits",
    "Suprb.C45_variants_identical",
    "Suprb.C45_saga3_bits",
    "Suprb.C45_saga3_identical",
    "Suprb.C45_saga3_parents_partial",
    "Suprb.C45_saga3_parents_refuted",
    "Suprb.C45_saga2_bits"
   ],
   "note": "Bits, lengths and identical parents are proved for all crossovers (genetic algorithm, saga1, saga2, saga3, SAS), and that parents are unchanged for the genetic algorithm (heap model). Refuted for saga3, which overwrites the rates of its first parent if it does not recombine; genomes and evaluations of all existing solutions are unchanged there too."
  },
  {
   "property": "C46",
   "status": "partial",
   "theorems": [
    "Suprb.C46_refuted",
    "Suprb.C46_single_cut_partial",
    "Suprb.C46_one_point_partial",
    "Suprb.C46_variants_partial",
    "Suprb.C46_always_refuted"
   ],
   "note": "False for two or more cut points (C46_refuted; C46_always_refuted for all parents that differ behind the second cut, in all algorithms). Proved: the result equals a single cut at the smallest chosen index in all algorithms; one-point crossover alternates."
  },
  {
   "property": "C47",
   "status": "proved",
   "theorems": [
    "Suprb.C47_flips",
    "Suprb.C47_extremes",
    "Suprb.C47_parent_unchanged"
   ],
   "note": "A position flips iff its draw is below the rate; rates 0 and 1; the parent object is unchanged (heap model)."
  },
  {
   "property": "C48",
   "status": "partial",
   "theorems": [
    "Suprb.C48_members_partial",
    "Suprb.C48_tournament_partial",
    "Suprb.C48_mixed_signs_refuted",
    "Suprb.C48_negative_refuted",
    "Suprb.C48_roulette_partial",
    "Suprb.C48_linear_rank_partial"
   ],
   "note": "Random, linear rank, tournament: proved. Roulette wheel: proved for non-negative fitness that is not all zero; refuted for mixed signs (ValueError) and negative fitness (prefers the worse)."
  },
  {
   "property": "C49",
   "status": "proved",
   "theorems": [
    "Suprb.C49_append_only",
    "Suprb.C49_bounded",
    "Suprb.C49_discovery_bound",
    "Suprb.C49_random_search_bound"
   ],
   "note": "Whole runs, arbitrary discovery and metaheuristic."
  },
  {
   "property": "C50",
   "status": "partial",
   "theorems": [
    "Suprb.C50_streak_partial",
    "Suprb.C50_disabled_partial",
    "Suprb.C50_refuted"
   ],
   "note": "`previous_fitness_` is never updated, so fitness is compared with 0: `C50_refuted` shows a run that goes on although the last iterations did not improve and one that stops although every iteration improved. The `_partial` theorems give the streak condition relative to 0 and that patience <= 0 never stops early."
  },
  {
   "property": "C51",
   "status": "proved",
   "theorems": [
    "Suprb.C51_contained",
    "Suprb.C51_normal",
    "Suprb.C51_only_failures"
   ],
   "note": "Whole fits, arbitrary discovery, metaheuristic and data."
  },
  {
   "property": "C52",
   "status": "partial",
   "theorems": [
    "Suprb.C52_fits_partial",
    "Suprb.C52_refuted"
   ],
   "note": "`C52_refuted`: n_iter=0 raises, n_rules=0 is a contained failure. `C52_fits_partial` covers n_iter, n_rules, population_size >= 1 and (no initial rules or a new estimator)."
  },
  {
   "property": "C53",
   "status": "proved",
   "theorems": [
    "Suprb.C53_seeds",
    "Suprb.C53_distinct",
    "Suprb.C53_distinct_initial"
   ],
   "note": "All fits; the discovery of initial rules is an extra call that shares the seed of the current `step_` (stated in the theorem and shown in the example)."
  },
  {
   "property": "C54",
   "status": "partial",
   "theorems": [
    "Suprb.C54_reproducible_partial",
    "Suprb.C54_refuted"
   ],
   "note": "`C54_refuted`: with n_initial_rules > 0 the second fit uses the seed of the last step for the initial rules. `C54_reproducible_partial` covers n_initial_rules = 0 and new estimators."
  },
  {
   "property": "C55",
   "status": "partial",
   "theorems": [
    "Suprb.C55_invalid_data_partial",
    "Suprb.C55_refuted"
   ],
   "note": "`C55_refuted`: after a refit with invalid data the model predicts zeros. `C55_invalid_data_partial` states what holds for all inputs."
  },
  {
   "property": "C56",
   "status": "proved",
   "theorems": [
    "Suprb.C56_predictions",
    "Suprb.C56_completed"
   ],
   "note": "For every loadable configuration (LoadableConfig: restorable in the sense of C57, default filter, the component names the loader needs) and every fitted model whose elitist selects at least one fitted rule, dump and load succeed and predictions agree on every batch; C56_completed applies it to every completed fit."
  },
  {
   "property": "C57",
   "status": "partial",
   "theorems": [
    "Suprb.C57_refuted_filter",
    "Suprb.C57_refuted_prefix",
    "Suprb.C57_refuted_none",
    "Suprb.C57_refuted_numpy",
    "Suprb.C57_restored_partial"
   ],
   "note": "Refuted: an NBestFitness filter comes back as the default filter, a parameter whose name is a string prefix of another (crossover / crossover_rate) makes loading fail, and a top-level None comes back as the text NoneType. Proved (C57_restored_partial): for every configuration tree satisfying Restorable, loading the saved configuration gives back every non-logger parameter, recursively, up to array contents, which are not saved."
  },
  {
   "property": "C58",
   "status": "proved",
   "theorems": [
    "Suprb.C58_terminates"
   ],
   "note": "The deserialisation loop ends for every dictionary with distinct keys (every Python dictionary), by a decreasing number of entries."
  },
  {
   "property": "C59",
   "status": "partial",
   "theorems": [
    "Suprb.C59_dump_partial",
    "Suprb.C59_refuted_loaded",
    "Suprb.C59_refuted_failed",
    "Suprb.C59_refuted_empty",
    "Suprb.C59_completed_partial"
   ],
   "note": "Refuted: loaded models cannot be dumped again, models of failed fits and elitists without rules cannot be dumped. Proved: every model with an evaluated elitist that selects at least one fitted rule can be dumped, in particular after every completed fit."
  },
  {
   "property": "C60",
   "status": "partial",
   "theorems": [
    "Suprb.C60_unknown_partial",
    "Suprb.C60_sets_partial",
    "Suprb.C60_independent_partial",
    "Suprb.C60_refuted_shared",
    "Suprb.C60_refuted_misspelt",
    "Suprb.C60_refuted_skipped"
   ],
   "note": "Refuted: calls without explicit model share one object; a misspelt component is skipped silently and another parameter is set. Proved: if all names exist, every parameter has exactly the documented value and there is no warning; unknown last names warn and change nothing; calls on different explicit models are independent."
  },
  {
   "property": "C61",
   "status": "proved",
   "theorems": [
    "Suprb.C61_adjust",
    "Suprb.C61_run"
   ],
   "note": "C61_adjust: one adaptation keeps both rates in their ranges (multipliers at least 1, minima non-negative); C61_run: so does every generation of every run, whatever evaluations and draws."
  },
  {
   "property": "C62",
   "status": "proved",
   "theorems": [
    "Suprb.C62_fresh",
    "Suprb.C62_run"
   ],
   "note": "C62_fresh: initial parameters of solutions are in [0,1]; C62_run: in every run of saga3 all parameters of parents, children, elitists and the returned population are in [0,1]."
  },
  {
   "property": "C63",
   "status": "partial",
   "theorems": [
    "Suprb.C63_refuted",
    "Suprb.C63_nan_refuted",
    "Suprb.C63_diversity_partial",
    "Suprb.C63_similarity_partial",
    "Suprb.C63_adjust_partial",
    "Suprb.C63_crossover_rate_partial",
    "Suprb.C63_mutation_rate_partial",
    "Suprb.C63_mutation_rate_refuted",
    "Suprb.C63_idle_step_refuted",
    "Suprb.C63_idle_refuted",
    "Suprb.C63_nan_call_refuted"
   ],
   "note": "False: C63_refuted is a complete run whose adapted crossover minimum falls below and mutation maximum rises above the configured range; C63_nan_refuted: equal fitness values with maximal variance 0 give NaN; C63_mutation_rate_refuted: children fitter than the recorded maximum mutate with a rate below the minimum. Proved partially: diversity, similarity (for small fitness values), the adaptation and the resulting rates under explicit assumptions. C63_nan_call_refuted and C63_idle_refuted: NaN bounds survive the call and make the first generation of the next one a mere copy."
  },
  {
   "property": "C64",
   "status": "partial",
   "theorems": [
    "Suprb.C64_keeps_age_partial",
    "Suprb.C64_ages_partial",
    "Suprb.C64_nonempty_partial",
    "Suprb.C64_median_refuted",
    "Suprb.C64_single_refuted",
    "Suprb.C64_extinct_refuted"
   ],
   "note": "False: C64_median_refuted, C64_single_refuted, C64_extinct_refuted (runs in which solutions fitter than the median lose age, or the population dies out and an IndexError follows). Proved partially: solutions above the median keep their age while the population has at most 2*top_n solutions; ages fall by 0..4 and survivors have positive age; the population stays non-empty while sizes stay below top_n."
  },
  {
   "property": "C65",
   "status": "proved",
   "theorems": [
    "Suprb.C65_greedy",
    "Suprb.C65_iteration"
   ],
   "note": "One iteration of the bee colony, all draws: every greedy update keeps the better of source and candidate (C65_greedy); C65_iteration follows every source through both phases: fitness only decreases where a scout replaced an exhausted source. All three food updates."
  },
  {
   "property": "C66",
   "status": "proved",
   "theorems": [
    "Suprb.C66_memory",
    "Suprb.C66_ranges"
   ],
   "note": "All three movements, all draws, any number of iterations; the state carries a ghost log of the particles after each iteration. C66_memory: the personal best is the fittest position held so far; C66_ranges: velocities within [-v_max, v_max]."
  },
  {
   "property": "C67",
   "status": "partial",
   "theorems": [
    "Suprb.C67_refuted",
    "Suprb.C67_threshold_partial",
    "Suprb.C67_square_partial"
   ],
   "note": "Refuted as stated (C67_refuted): binary_mean compares with half of the number of rules, not of particles. C67_threshold_partial gives the exact behaviour; C67_square_partial: the claim holds for an even number of particles equal to the number of rules, up to ties."
  },
  {
   "property": "C68",
   "status": "proved",
   "theorems": [
    "Suprb.C68_pad",
    "Suprb.C68_start",
    "Suprb.C68_run"
   ],
   "note": "Both ant graphs, all draws and pool growth; C68_run covers every iteration via a ghost log; hypothesis min <= max."
  },
  {
   "property": "C69",
   "status": "partial",
   "theorems": [
    "Suprb.C69_refuted",
    "Suprb.C69_dead_refuted",
    "Suprb.C69_empty",
    "Suprb.C69_partial"
   ],
   "note": "Refuted (C69_refuted): equal fitness of all rules gives 0/0; then, unless beta = 0, no ant ever selects a rule (C69_dead_refuted). C69_partial: the claim holds when two rules differ in fitness."
  },
  {
   "property": "C70",
   "status": "partial",
   "theorems": [
    "Suprb.C70_scores_partial",
    "Suprb.C70_biased_partial",
    "Suprb.C70_refuted",
    "Suprb.C70_pareto_front",
    "Suprb.C70_progressive",
    "Suprb.C70_progressive_exact",
    "Suprb.C70_pareto_survivors",
    "Suprb.C70_progressive_survivors",
    "Suprb.C70_all_survive"
   ],
   "note": "Proved: scores in [0,1] for every run without local competition and for the biased variant with weights summing to at most 1 and fitness in [0,100]; exactness of the Pareto front; the progressive criterion keeps at least half. Refuted for local competition: scores above 1 occur. For the novelty calculation as a whole it is stated which rules come back."
  },
  {
   "property": "C71",
   "status": "proved",
   "theorems": [
    "Suprb.C71_flatten",
    "Suprb.C71_bounds"
   ],
   "note": "flatten against a path-based specification on all finite nestings; estimate_bounds contains all samples, is attained, and raises ValueError without samples."
  },
  {
   "property": "C72",
   "status": "partial",
   "theorems": [
    "Suprb.C72_refuted",
    "Suprb.C56_predictions"
   ],
   "note": "Refuted: with an NBestFitness filter the loaded model predicts differently. Proved (C56_predictions): with the default filter and experience calculation and any weight, predictions agree."
  },
  {
   "property": "C73",
   "status": "proved",
   "theorems": [
    "Suprb.C73_aco",
    "Suprb.C73_ga",
    "Suprb.C73_saga1",
    "Suprb.C73_saga2",
    "Suprb.C73_saga3",
    "Suprb.C73_sas",
    "Suprb.C73_abc",
    "Suprb.C73_pso",
    "Suprb.C73_gwo",
    "Suprb.C73_rs"
   ],
   "note": "All ten strategies; stated as Strategy.Good (lengths, evaluated, only genomes of the pool's length are evaluated)."
  },
  {
   "property": "C74",
   "status": "partial",
   "theorems": [
    "Suprb.C74_ga_partial",
    "Suprb.C74_saga1_partial",
    "Suprb.C74_saga2_partial",
    "Suprb.C74_saga3_partial",
    "Suprb.C74_refuted",
    "Suprb.C74_ga_refuted",
    "Suprb.C74_sas_refuted"
   ],
   "note": "Proved for the genetic algorithm and saga1-3 with at least one elitist, for all draws. Refuted by concrete runs for random search, bee colony, particle swarm, grey wolves, ant colony, SAS and the genetic algorithm without elitists."
  },
  {
   "property": "C75",
   "status": "proved",
   "theorems": [
    "Suprb.C75_wolf",
    "Suprb.C75_run"
   ],
   "note": "C75_wolf: one move; C75_run: whole runs. A leader is picked among the existing ones."
  },
  {
   "property": "C76",
   "status": "partial",
   "theorems": [
    "Suprb.C76_ordered_partial",
    "Suprb.C76_refuted"
   ],
   "note": "Holds for ordered bounds of positive width (C76_ordered_partial). Refuted (C76_refuted): zero volume gives 0/0, and centre/spread columns are treated as lower/upper bounds, giving negative weights."
  },
  {
   "property": "C77",
   "status": "partial",
   "theorems": [
    "Suprb.C77_partial",
    "Suprb.C77_refuted",
    "Suprb.C77_survivors_partial"
   ],
   "note": "Refuted: parameter and percentile are exchanged in the code, so rules matching min_examples_matched samples are removed and more than a quarter can go. Proved what the code does: rules with experience at least 25 stay, some rule stays, at most min_examples_matched percent (rounded) are removed."
  },
  {
   "property": "C78",
   "status": "proved",
   "theorems": [
    "Suprb.C78_returned",
    "Suprb.C78_archive",
    "Suprb.C78_children",
    "Suprb.C78_run"
   ],
   "note": "For every variant, search type, archive, population and draw; exceptions are outcomes without result. C78_run gives the content of the archive after a whole call: the pool in its order, then at most roh children per iteration."
  },
  {
   "property": "C79",
   "status": "proved",
   "theorems": [
    "Suprb.C79_default_fit",
    "Suprb.C79_default_values"
   ],
   "note": "For all draws numpy can return, all data sets, seeds, local models and fitness functions. Refits are covered too unless n_initial_rules > 0 and the previous fit had more iterations (C54)."
  },
  {
   "property": "C80",
   "status": "proved",
   "theorems": [
    "Suprb.C80_default_predict"
   ],
   "note": "From C79, C17 and C51."
  },
  {
   "property": "C81",
   "status": "proved",
   "theorems": [
    "Suprb.C81_extrapolation"
   ],
   "note": "Rules stay in the range of the training data (C02), so nothing matches outside."
  },
  {
   "property": "C82",
   "status": "proved",
   "theorems": [
    "Suprb.C82_no_nan",
    "Suprb.C82_fitness_values"
   ],
   "note": "NaN is an arbitrary real in the model; fit is shown not to depend on it, and the stored values are shown to be the formula's and in [0,100]."
  },
  {
   "property": "C83",
   "status": "proved",
   "theorems": [
    "Suprb.C83_statistics",
    "Suprb.C83_empty",
    "Suprb.C83_order_irrelevant"
   ],
   "note": "Statistics of any non-empty list; independent of the order. Percentiles are specified by counting. Floats are exact numbers."
  },
  {
   "property": "C84",
   "status": "proved",
   "theorems": [
    "Suprb.C84_history",
    "Suprb.C84_states"
   ],
   "note": "Exact set of recorded keys and steps for every successful log of every run; the statistics of the rule fitness are stated for fitness values that are not -inf (always the case in default runs, C86)."
  },
  {
   "property": "C85",
   "status": "proved",
   "theorems": [
    "Suprb.C85_elitist"
   ],
   "note": "All runs whose composition returns its elitist (GoodStrategies, shown for the default strategy), including refits; the last logged values equal those of the fitted model and its predictions."
  },
  {
   "property": "C86",
   "status": "proved",
   "theorems": [
    "Suprb.C86_score",
    "Suprb.C86_default_logging"
   ],
   "note": "C86_score: all targets and predictions with two or more samples. C86_default_logging: logging succeeds in every default run, with the score computed from the true training error (the logged error is that error, at least 0.0001)."
  },
  {
   "property": "C87",
   "status": "proved",
   "theorems": [
    "Suprb.C87_squared_error_probabilities",
    "Suprb.C87_origins"
   ],
   "note": "Probabilities are proportional to the squared errors; with zero total error the choice is uniform. C87_origins is about the drawn samples."
  },
  {
   "property": "C88",
   "status": "partial",
   "theorems": [
    "Suprb.C88_searches_partial",
    "Suprb.C88_searches_refuted",
    "Suprb.C88_parents",
    "Suprb.C88_random",
    "Suprb.C88_fittest",
    "Suprb.C88_roulette_partial",
    "Suprb.C88_roulette_refuted",
    "Suprb.C88_es_partial",
    "Suprb.C88_es_refuted"
   ],
   "note": "false for the roulette wheel with fitness sum 0 (empty list, IndexError in the evolution strategy); proved for fittest, random, and the roulette wheel with fitness values that are -inf or >= 0 and not all 0; the same for several rules at once in random search and novelty search, whose parents are exactly the selected rules"
  },
  {
   "property": "C89",
   "status": "partial",
   "theorems": [
    "Suprb.C89_n_best",
    "Suprb.C89_n_random",
    "Suprb.C89_roulette_partial",
    "Suprb.C89_roulette_refuted"
   ],
   "note": "proved for the filters by fitness and by chance; false for the roulette filter if a selected rule has fitness 0 (ValueError); proved there for positive fitness"
  },
  {
   "property": "C90",
   "status": "partial",
   "theorems": [
    "Suprb.C90_n_random",
    "Suprb.C90_n_best_partial",
    "Suprb.C90_roulette_partial",
    "Suprb.C90_n_best_refuted"
   ],
   "note": "proved for random filters; n-best for n >= 1 (false for 0: all rules are used); roulette for positive fitness"
  },
  {
   "property": "C91",
   "status": "partial",
   "theorems": [
    "Suprb.C91_refuted",
    "Suprb.C91_partial"
   ],
   "note": "false for random filters (every call draws again); proved when the filter keeps all selected rules; the other filters draw nothing"
  },
  {
   "property": "C92",
   "status": "partial",
   "theorems": [
    "Suprb.C92_partial",
    "Suprb.C92_order_irrelevant",
    "Suprb.C92_refuted",
    "Suprb.C92_degenerate"
   ],
   "note": "Refuted: three solutions with diversity 2 (division by the genome length only). Proved: value as a count of disagreements, zero exactly for equal genomes, order irrelevant, bound by a quarter of the squared population size; degenerate cases."
  },
  {
   "property": "C93",
   "status": "proved",
   "theorems": [
    "Suprb.C93_proportion",
    "Suprb.C93_bounds"
   ],
   "note": "For every pool consistent with the training data."
  },
  {
   "property": "C94",
   "status": "proved",
   "theorems": [
    "Suprb.C94_combined",
    "Suprb.C94_failure"
   ],
   "note": "For every logger given as a state machine with failures."
  },
  {
   "property": "C95",
   "status": "proved",
   "theorems": [
    "Suprb.C95_set_params",
    "Suprb.C95_unknown",
    "Suprb.C95_get_params"
   ],
   "note": "For unique logger names and arbitrary nested setters."
  },
  {
   "property": "C96",
   "status": "partial",
   "theorems": [
    "Suprb.C96_exact_partial",
    "Suprb.C96_refuted",
    "Suprb.C96_refuted_default",
    "Suprb.C96_documented_partial",
    "Suprb.C96_refuted_unconfigured"
   ],
   "note": "Exactly which configurations of matching type, initialisation and mutation produce a child is proved; the general claim is refuted. Missing: the excluded configurations, for which it is false."
  },
  {
   "property": "C97",
   "status": "proved",
   "theorems": [
    "Suprb.Json.C97_configured"
   ],
   "note": "For components in which no two parameters of one component have the same name (as for Python constructors)."
  },
  {
   "property": "C98",
   "status": "partial",
   "theorems": [
    "Suprb.C98_fit_partial",
    "Suprb.C98_best_partial",
    "Suprb.C98_refuted"
   ],
   "note": "Proved for all origin strategies without initial rules and for all but squared-error origins with initial rules. Missing: initial rules with squared-error origins, for which it is refuted."
  },
  {
   "property": "C99",
   "status": "proved",
   "theorems": [
    "Suprb.C99_origins",
    "Suprb.C99_available"
   ],
   "note": "The squared-error strategy fails when there are rules but no elitist (C37); the claim is about the origins that are returned, C99_available gives the conditions under which they are."
  },
  {
   "property": "C100",
   "status": "partial",
   "theorems": [
    "Suprb.C100_refuted",
    "Suprb.C100_accepted_partial"
   ],
   "note": "Proved for None and non-negative integers; refuted for Generator and RandomState objects."
  },
  {
   "property": "C101",
   "status": "proved",
   "theorems": [
    "Suprb.C101_best",
    "Suprb.C101_all_iterations",
    "Suprb.C101_reported"
   ],
   "note": "The solution kept by fit is a fittest one of the last population and archive (with and without cleanup of the result); the fitness never was higher with an archive; the reported values are those of the predictions for the training data."
  },
  {
   "property": "C102",
   "status": "partial",
   "theorems": [
    "Suprb.C102_adjust_partial",
    "Suprb.C102_negative_refuted",
    "Suprb.C102_generation_partial",
    "Suprb.C102_bic_refuted"
   ],
   "note": "Proved if the best fitness is not negative. Refuted for negative best fitness (PseudoBIC): the rates always move towards exploration."
  },
  {
   "property": "C103",
   "status": "partial",
   "theorems": [
    "Suprb.C103_saga2_run_partial",
    "Suprb.C103_abc_run_partial",
    "Suprb.C103_sas_partial",
    "Suprb.C103_sas_small_partial",
    "Suprb.C103_rs_partial",
    "Suprb.C103_gwo_partial",
    "Suprb.C103_pso_partial",
    "Suprb.C103_saga1_partial",
    "Suprb.C103_saga3_partial",
    "Suprb.C103_aco_partial",
    "Suprb.C103_abc_partial",
    "Suprb.C103_abc_refuted",
    "Suprb.C103_abc_default_partial",
    "Suprb.C103_saga2_refuted",
    "Suprb.C103_saga2_partial",
    "Suprb.C103_odd_refuted",
    "Suprb.C103_sas_refuted"
   ],
   "note": "False for the bee colony (all fitness values zero), SAGA2 and SAS after an iteration with an empty pool, and odd population sizes in SAGA1-3. Proved for whole fits with random search, grey wolves, particle swarm, ant colony, SAGA1 and SAGA3; for whole fits with SAGA2 unless a pool is empty (or with a new population in every iteration), and with the bee colony unless a pool has the largest possible size; for SAS exactly when a call fails, and that it does not while the population is small."
  },
  {
   "property": "C104",
   "status": "proved",
   "theorems": [
    "Suprb.C104_cover",
    "Suprb.C104_common"
   ],
   "note": "Ordered rules inside the feature bounds, increasing mutation, all draws; also that a common training sample keeps both children."
  },
  {
   "property": "C105",
   "status": "partial",
   "theorems": [
    "Suprb.C105_size_partial",
    "Suprb.C105_collapse_refuted"
   ],
   "note": "False with warm start after an iteration with an empty pool: one solution remains for the rest of the run. Proved for sequences of iterations with rules."
  },
  {
   "property": "C106",
   "status": "partial",
   "theorems": [
    "Suprb.C106_fit_partial",
    "Suprb.C106_refuted",
    "Suprb.C106_attributes"
   ],
   "note": "False for squared-error origins (the default) with initial rules. Proved for whole fits otherwise: all novelty calculations, search types, archives and selection operators, all data and random numbers."
  },
  {
   "property": "C107",
   "status": "partial",
   "theorems": [
    "Suprb.C107_leftovers_partial",
    "Suprb.C107_refuted"
   ],
   "note": "False for rules found by another discovery method (AttributeError). Proved for pools filled by novelty search, whatever attributes earlier searches left."
  },
  {
   "property": "C108",
   "status": "partial",
   "theorems": [
    "Suprb.C108_zero_or_error_partial",
    "Suprb.C108_same",
    "Suprb.C108_default_partial",
    "Suprb.C108_refuted"
   ],
   "note": "Refuted: with one feature on either side prediction can silently return zeros. Proved exactly when."
  },
  {
   "property": "C109",
   "status": "proved",
   "theorems": [
    "Suprb.C109_lines",
    "Suprb.C109_succeeds",
    "Suprb.C109_default"
   ],
   "note": "All completed trainings with recorded metrics; all trainings with default components."
  },
  {
   "property": "C110",
   "status": "partial",
   "theorems": [
    "Suprb.C110_never_partial",
    "Suprb.C110_refuted"
   ],
   "note": "Refuted: the warning never appears."
  },
  {
   "property": "C111",
   "status": "proved",
   "theorems": [
    "Suprb.C111_pool_unchanged",
    "Suprb.C111_no_sharing",
    "Suprb.C111_evolution_strategy_values"
   ],
   "note": "All sequences of discovery phases of all three strategies, including exceptions."
  },
  {
   "property": "C112",
   "status": "proved",
   "theorems": [
    "Suprb.Comp.C112_parameters",
    "Suprb.Comp.C112_clones",
    "Suprb.Comp.C112_stored",
    "Suprb.Comp.C112_separate",
    "Suprb.Comp.C112_again"
   ],
   "note": "All outcomes of fit, all assignments of the training to clones."
  },
  {
   "property": "C113",
   "status": "partial",
   "theorems": [
    "Suprb.Comp.C113_independent_partial",
    "Suprb.Comp.C113_set_params_refuted",
    "Suprb.Comp.C113_wrapper_refuted",
    "Suprb.Comp.C113_default_refuted"
   ],
   "note": "Refuted: default components are shared. Partial: models without common objects are independent."
  },
  {
   "property": "C114",
   "status": "proved",
   "theorems": [
    "Suprb.C114_concat",
    "Suprb.C114_single",
    "Suprb.C114_order"
   ],
   "note": "Filters given as a function of the selected rules; random filters draw anew per call (C91)."
  },
  {
   "property": "C115",
   "status": "proved",
   "theorems": [
    "Suprb.Comp.C115_conditions",
    "Suprb.Comp.C115_raises",
    "Suprb.Comp.C115_evolution_strategy",
    "Suprb.Comp.C115_novelty_search"
   ],
   "note": "For arbitrary classes and conditions, and for the two conditions in the code."
  },
  {
   "property": "C116",
   "status": "partial",
   "theorems": [
    "Suprb.Comp.C116_accepted_partial",
    "Suprb.Comp.C116_constructed",
    "Suprb.Comp.C116_set_params_refuted",
    "Suprb.Comp.C116_none_refuted"
   ],
   "note": "Refuted for set_params and for None arguments. Proved for components as their constructors leave them."
  },
  {
   "property": "C117",
   "status": "proved",
   "theorems": [
    "Suprb.C117_bitwise",
    "Suprb.C117_flips",
    "Suprb.C117_bees",
    "Suprb.C117_particles"
   ],
   "note": "Bitwise and partial-crossover bees, binary particles."
  },
  {
   "property": "C118",
   "status": "partial",
   "theorems": [
    "Suprb.C118_sas_partial",
    "Suprb.C118_saga1_partial",
    "Suprb.C118_saga3_partial",
    "Suprb.C118_saga2_partial",
    "Suprb.C118_aco_partial",
    "Suprb.C118_gwo_partial",
    "Suprb.C118_pso_partial",
    "Suprb.C118_abc_visits_partial",
    "Suprb.C118_abc_partial",
    "Suprb.C118_refuted",
    "Suprb.C118_random_partial",
    "Suprb.C118_rs_partial",
    "Suprb.C118_sigmoid_partial",
    "Suprb.C118_ga_partial",
    "Suprb.C118_ga_default_partial"
   ],
   "note": "Refuted for zero initialisation with recombining searches. Proved for random initialisation, random search, grey wolves, particles and bees with sigmoid binarisation (whole runs), the genetic algorithm, SAS, SAGA1, SAGA3 with rates strictly between 0 and 1, the first generation of SAGA2, and the ant colony for pools with two different fitness values. Missing: SAGA2 after its bounds have left [0, 1]; with NaN bounds its first generation only copies (C63_idle_refuted)."
  },
  {
   "property": "C119",
   "status": "proved",
   "theorems": [
    "Suprb.C119_unused",
    "Suprb.C119_chance",
    "Suprb.C119_rare"
   ],
   "note": "Both position updates."
  },
  {
   "property": "C120",
   "status": "proved",
   "theorems": [
    "Suprb.C120_better_rule_pulls"
   ],
   "note": "Any experience calculation with positive values."
  },
  {
   "property": "C121",
   "status": "partial",
   "theorems": [
    "Suprb.C121_refuted",
    "Suprb.C121_uniform_copies_partial"
   ],
   "note": "Refuted: copies of single rules change predictions. Proved if all matching rules are copied equally often."
  },
  {
   "property": "C122",
   "status": "proved",
   "theorems": [
    "Suprb.C122_filters",
    "Suprb.C122_convex_region",
    "Suprb.C122_piecewise_linear",
    "Suprb.C122_ridge"
   ],
   "note": "Any matching type; affine local models are a hypothesis, which ridge regression meets."
  },
  {
   "property": "C123",
   "status": "partial",
   "theorems": [
    "Suprb.C123_rule_shift",
    "Suprb.C123_predictions_partial",
    "Suprb.C123_solution_partial",
    "Suprb.C123_refuted",
    "Suprb.C123_ridge"
   ],
   "note": "Refuted for uncovered samples (predicted as 0). Proved for rules, covered samples, and solutions covering the training data. Ridge regression meets the hypothesis on local models."
  },
  {
   "property": "C124",
   "status": "partial",
   "theorems": [
    "Suprb.C124_predictions_partial",
    "Suprb.C124_solution_partial",
    "Suprb.C124_refuted",
    "Suprb.C124_ridge"
   ],
   "note": "Refuted because of the absolute error floor. Proved if all reported errors exceed it. Ridge regression meets the hypothesis on local models."
  },
  {
   "property": "C125",
   "status": "proved",
   "theorems": [
    "Suprb.C125_filters",
    "Suprb.C125_rule_order",
    "Suprb.C125_model_order",
    "Suprb.C125_ridge"
   ],
   "note": "The same rules fitted on both orders; exact arithmetic. Ridge regression meets the hypothesis on local models."
  },
  {
   "property": "C126",
   "status": "partial",
   "theorems": [
    "Suprb.C126_deterministic_partial",
    "Suprb.C126_small_partial",
    "Suprb.C126_refuted"
   ],
   "note": "Refuted for NRandom and RouletteWheel filters, whose generator is shared by all solutions. Proved for the other filters and if no solution selects more rules than the filter keeps."
  },
  {
   "property": "C127",
   "status": "partial",
   "theorems": [
    "Suprb.C127_roundtrip_partial",
    "Suprb.C127_refuted"
   ],
   "note": "Refuted: models without rules (e.g. all targets below 0.01) cannot be saved. Proved for models that select at least one rule."
  },
  {
   "property": "C128",
   "status": "partial",
   "theorems": [
    "Suprb.C128_exact_rule_partial",
    "Suprb.C128_refuted"
   ],
   "note": "Refuted: with all targets below 0.01 no rule is accepted. Proved: accepted iff the mean squared target is at least 1e-4 times beta."
  },
  {
   "property": "C129",
   "status": "partial",
   "theorems": [
    "Suprb.C129_doubling_partial",
    "Suprb.C129_distinct_partial",
    "Suprb.C129_refuted",
    "Suprb.C129_default_refuted"
   ],
   "note": "Refuted, also for the default settings: equally good solutions that improve every second generation double as often. Proved: at most doubling per generation, and below 20 times the initial size if all fitness values of each generation differ."
  },
  {
   "property": "C130",
   "status": "proved",
   "theorems": [
    "Suprb.C130_default_discovery",
    "Suprb.C130_rs",
    "Suprb.C130_gwo",
    "Suprb.C130_pso",
    "Suprb.C130_aco",
    "Suprb.C130_abc",
    "Suprb.C130_ga",
    "Suprb.C130_saga1",
    "Suprb.C130_saga2",
    "Suprb.C130_saga3",
    "Suprb.C130_evolution_strategy",
    "Suprb.C130_random_rules",
    "Suprb.C130_novelty_search"
   ],
   "note": "Number of calls of Solution.fit per composition call and of rule objects per discovery call; the archive refits come on top, SAS is C129. The numbers of iterations and children are the lengths of the lists of random numbers; for runs with the default components they are shown to follow from the settings."
  },
  {
   "property": "C131",
   "status": "partial",
   "theorems": [
    "Suprb.C131_rule",
    "Suprb.C131_prediction_partial",
    "Suprb.C131_outlier_partial",
    "Suprb.C131_refuted"
   ],
   "note": "Proved for rules and for predictions with the default (no) filter; refuted for the filter of the n best rules."
  },
  {
   "property": "C132",
   "status": "partial",
   "theorems": [
    "Suprb.C132_rule_partial",
    "Suprb.C132_solution_partial",
    "Suprb.C132_trained_partial",
    "Suprb.C132_current_partial",
    "Suprb.C132_clone_refuted",
    "Suprb.C132_unmatched_refuted",
    "Suprb.C132_solution_refuted",
    "Suprb.C132_loaded_refuted"
   ],
   "note": "Refuted for objects that are not fitted and for loaded models; proved for rules trained on data they match, solutions after fit and rules of trained models."
  },
  {
   "property": "C133",
   "status": "partial",
   "theorems": [
    "Suprb.C133_volume_refuted",
    "Suprb.C133_pseudo_accuracy_refuted",
    "Suprb.C133_unmatched_partial",
    "Suprb.C133_volume_partial"
   ],
   "note": "Refuted: loaded rules hold the fitness class. Proved: model, error and experience agree for fitness classes that can be constructed from one argument."
  },
  {
   "property": "C134",
   "status": "proved",
   "theorems": [
    "Suprb.Comp.C134_bounds_from_data",
    "Suprb.Comp.C134_matching_type",
    "Suprb.Comp.C134_others_as_given"
   ],
   "note": "For configurations in which no part of rule discovery holds a matching function of its own."
  },
  {
   "property": "C135",
   "status": "partial",
   "theorems": [
    "Suprb.C135_saga3_flips",
    "Suprb.C135_saga3_crossover",
    "Suprb.C135_crossover_off",
    "Suprb.C135_crossover_variants_off",
    "Suprb.C135_crossover_on",
    "Suprb.C135_uniform_crossover_on",
    "Suprb.C135_flips_off",
    "Suprb.C135_flips_on",
    "Suprb.C135_init_on",
    "Suprb.C135_init_refuted",
    "Suprb.C135_init_partial",
    "Suprb.C135_rule_crossover_off",
    "Suprb.C135_rule_crossover_on",
    "Suprb.C135_strength_partial",
    "Suprb.C135_strength_refuted",
    "Suprb.C135_halfnorm_centre_partial",
    "Suprb.C135_ga_selects",
    "Suprb.C135_sas_selects"
   ],
   "note": "Refuted for RandomInit with probability 0 (draw 0) and for Halfnorm with strength 0; everything else is proved, including whole runs of the genetic algorithm and SAS, and the operators of saga3 with the rates of the solutions."
  },
  {
   "property": "C136",
   "status": "partial",
   "theorems": [
    "Suprb.C136_convex_partial",
    "Suprb.C136_covered_refuted",
    "Suprb.C136_batch",
    "Suprb.C136_only_matching_refuted",
    "Suprb.C136_order_refuted",
    "Suprb.C136_order_partial",
    "Suprb.C136_better_refuted"
   ],
   "note": "Independence of the batch is proved for every filter. Refuted with NBestFitness: covered samples, non-matching rules, order of the pool (ties), better rules. Proved instead: predictions are 0 or between the local predictions; the order does not matter for distinct fitness values."
  },
  {
   "property": "C137",
   "status": "partial",
   "theorems": [
    "Suprb.C137_order_partial",
    "Suprb.C137_operators_partial",
    "Suprb.C137_unordered_refuted",
    "Suprb.C137_default_partial",
    "Suprb.C137_composition_partial",
    "Suprb.C137_random_partial",
    "Suprb.C137_novelty_partial"
   ],
   "note": "Proved for whole fits with ordered bounds and any rule discovery (evolution strategy, random search, novelty search), origin strategy and composition strategy, and operator by operator for the other matching types. Refuted for the minimum range of unordered bounds."
  },
  {
   "property": "C138",
   "status": "partial",
   "theorems": [
    "Suprb.C138_units_partial",
    "Suprb.C138_default_offset_partial",
    "Suprb.C138_min_range_refuted",
    "Suprb.C138_ridge_refuted",
    "Suprb.C138_random_partial",
    "Suprb.C138_novelty_partial"
   ],
   "note": "Refuted by the absolute minimum range and by the default local model. Proved with converted minimum range and unit-free local models (any rule discovery, origin strategy and composition strategy), and for offsets with the default configuration."
  },
  {
   "property": "C139",
   "status": "proved",
   "theorems": [
    "Suprb.C139_at_least_constant"
   ],
   "note": "Ridge regression as the exact minimiser of its objective."
  },
  {
   "property": "C140",
   "status": "proved",
   "theorems": [
    "Suprb.C140_rejected_iff",
    "Suprb.C140_nothing_rejected",
    "Suprb.C140_full_pool"
   ],
   "note": "Evolution strategy with matching origins, ridge regression, beta at most 1."
  },
  {
   "property": "C141",
   "status": "proved",
   "theorems": [
    "Suprb.C141_constant_targets"
   ],
   "note": "Default components with ridge regression."
  },
  {
   "property": "C142",
   "status": "proved",
   "theorems": [
    "Suprb.C142_variance",
    "Suprb.C142_max_error",
    "Suprb.C142_kept",
    "Suprb.C142_extremes"
   ],
   "note": "Trained rules (errors of at least 1e-4)."
  },
  {
   "property": "C143",
   "status": "proved",
   "theorems": [
    "Suprb.C143_beyond_filters",
    "Suprb.C143_inside",
    "Suprb.C143_beyond",
    "Suprb.C143_ratio"
   ],
   "note": "Within the limits: any filter that returns some of the selected rules. Beyond the limits: all four filters of the library with any state of their generator. The bound on the ratio of the weights is for a non-negative experience weight."
  },
  {
   "property": "C144",
   "status": "proved",
   "theorems": [
    "Suprb.C144_order",
    "Suprb.C144_default",
    "Suprb.C144_composition",
    "Suprb.C144_random",
    "Suprb.C144_novelty"
   ],
   "note": "Any rule discovery (evolution strategy, random search, novelty search), origin strategy, composition strategy and parameters, with any local model that does not depend on the order of its samples; ridge regression does not."
  },
  {
   "property": "C145",
   "status": "partial",
   "theorems": [
    "Suprb.C145_best",
    "Suprb.C145_partial",
    "Suprb.C145_refuted"
   ],
   "note": "Proved for fitness values that are not negative. Refuted for negative fitness (PseudoBIC): the choices of the best ants become less likely."
  },
  {
   "property": "C146",
   "status": "partial",
   "theorems": [
    "Suprb.C146_partial",
    "Suprb.C146_zero_refuted",
    "Suprb.C146_mixed_refuted",
    "Suprb.C146_negative_refuted",
    "Suprb.C146_step_refuted"
   ],
   "note": "Proved if no fitness is negative and some is positive. Refuted otherwise: all zero or both signs raise a ValueError, all negative prefers the worst."
  },
  {
   "property": "C147",
   "status": "partial",
   "theorems": [
    "Suprb.C147_best_partial",
    "Suprb.C147_default_partial",
    "Suprb.C147_exhausted_refuted",
    "Suprb.C147_skipped_refuted"
   ],
   "note": "Proved for runs that stop early with a valid child in each generation (always the case for the default increase mutation). Refuted: after all generations the last rule is returned; a generation without valid children skips the stopping test."
  },
  {
   "property": "C148",
   "status": "partial",
   "theorems": [
    "Suprb.C148_repeat_partial",
    "Suprb.C148_ridge_partial",
    "Suprb.C148_default_partial",
    "Suprb.C148_ridge_refuted",
    "Suprb.C148_cap_refuted",
    "Suprb.C148_mean_partial"
   ],
   "note": "Proved for local models that do not notice repetition, e.g. averages, and for ridge regression if alpha is multiplied by the number of repetitions. Refuted for ridge regression with fixed alpha (the default) and for capped experience."
  },
  {
   "property": "C149",
   "status": "partial",
   "theorems": [
    "Suprb.C149_order_partial",
    "Suprb.C149_roulette_refuted",
    "Suprb.C149_stop_refuted",
    "Suprb.C149_parts_partial",
    "Suprb.C149_bees_refuted",
    "Suprb.C149_saga_refuted",
    "Suprb.C149_ants_refuted",
    "Suprb.C149_bias_refuted",
    "Suprb.C149_sas_partial",
    "Suprb.C149_saga2_refuted"
   ],
   "note": "Proved without early stopping for rule discovery by evolution strategy, random search or novelty search (not biased, parents selected without roulette wheel) and for composition by genetic algorithm or saga3 (selection by rank, by tournament or at random), random search, grey wolves and particle swarm; for the genetic algorithm with ageing (sas) for one call of the composition. Refuted for roulette wheel selection, early stopping, bee colonies, ant colonies, saga1, saga2 and biased novelty, which calculate with the values."
  },
  {
   "property": "C150",
   "status": "partial",
   "theorems": [
    "Suprb.C150_continues_partial",
    "Suprb.C150_fitness_partial",
    "Suprb.C150_refuted"
   ],
   "note": "Proved for every fitness of solutions that does not depend on the largest possible number of rules. Refuted for the default ComplexityWu, whose complexity term is relative to that number."
  },
  {
   "property": "C151",
   "status": "proved",
   "theorems": [
    "Suprb.C151_cut_off",
    "Suprb.C151_fitness"
   ],
   "note": ""
  },
  {
   "property": "C152",
   "status": "partial",
   "theorems": [
    "Suprb.C152_averaging_partial",
    "Suprb.C152_training_samples_partial",
    "Suprb.C152_refuted"
   ],
   "note": "Proved for local models that stay in the range of the targets they were trained on. For ridge regression (the default) a bound for training samples is proved instead, and the statement is refuted."
  },
  {
   "property": "C153",
   "status": "partial",
   "theorems": [
    "Suprb.C153_partial",
    "Suprb.C153_centerSpread_refuted",
    "Suprb.C153_origin_partial"
   ],
   "note": "Proved for ordered and unordered rules and arbitrary feature bounds, and for centre/spread and minimum/percentage rules and features between -1 and 1. Refuted for centre/spread rules and other feature bounds."
  },
  {
   "property": "C154",
   "status": "partial",
   "theorems": [
    "Suprb.C154_never_inverted_partial",
    "Suprb.C154_constrain_partial",
    "Suprb.C154_initial_partial",
    "Suprb.C154_increase_partial",
    "Suprb.C154_width_partial",
    "Suprb.C154_width_refuted"
   ],
   "note": "Proved except for the width: that is proved only where the widened ends need no rounding, and refuted for float64 arithmetic (unbounded exponent) with large features."
  },
  {
   "property": "C155",
   "status": "proved",
   "theorems": [
    "Suprb.C155_close",
    "Suprb.C155_float64",
    "Suprb.C155_order"
   ],
   "note": "The local predictions are taken as given. No overflow or underflow (unbounded exponent). The experience weight and the limits of the experience are positive, as with the defaults."
  },
  {
   "property": "C156",
   "status": "proved",
   "theorems": [
    "Suprb.C156_rule",
    "Suprb.C156_solution",
    "Suprb.C156_float64"
   ],
   "note": "The predictions are taken as given. No overflow or underflow (unbounded exponent)."
  },
  {
   "property": "C157",
   "status": "partial",
   "theorems": [
    "Suprb.C157_emary_partial",
    "Suprb.C157_volume_emary_partial",
    "Suprb.C157_accuracy_partial",
    "Suprb.C157_wu_partial",
    "Suprb.C157_volume_wu_partial",
    "Suprb.C157_wu_refuted"
   ],
   "note": "Holds for the Emary fitnesses and PseudoAccuracy; refuted for the Wu fitness, which keeps the order only of values that differ by more than the rounding errors. The pseudo-accuracies are taken as given. No overflow or underflow."
  },
  {
   "property": "C158",
   "status": "proved",
   "theorems": [
    "Suprb.Comp.C158_made",
    "Suprb.Comp.C158_configured",
    "Suprb.Comp.C158_prepared",
    "Suprb.Comp.C158_novelty_bias",
    "Suprb.Comp.C158_rates"
   ],
   "note": "Class tables are arbitrary; the two classes of the project that compute attributes from parameters are instances. Components without get_params (deep copies) are not covered; none of them computes attributes."
  },
  {
   "property": "C159",
   "status": "proved",
   "theorems": [
    "Suprb.C159_works",
    "Suprb.C159_fails",
    "Suprb.C159_decided"
   ],
   "note": "Fittest selection, Variance acceptance, CombinedConstraint(MinRange, Clip) and Matching origins, the defaults; at least one generation and child, a delay of at least one for '&'. A refit with initial rules after a fit with more iterations is excluded, as in C79."
  },
  {
   "property": "C160",
   "status": "partial",
   "theorems": [
    "Suprb.C160_nan_refuted",
    "Suprb.C160_first_child_refuted",
    "Suprb.C160_targets_ignored_refuted",
    "Suprb.C160_varied_partial",
    "Suprb.C160_accuracy_partial",
    "Suprb.C160_refuted"
   ],
   "note": "The refuting theorems hold for all data with a constant feature, ordered bounds, MeanInit and the default constraint. The claim holds if every feature varies and with PseudoAccuracy."
  },
  {
   "property": "C161",
   "status": "proved",
   "theorems": [
    "Suprb.C161_works",
    "Suprb.C161_fails",
    "Suprb.C161_initial"
   ],
   "note": "Parts that work on their own are described by DiscoveryPart.Works and CompositionPart.Works (the roulette wheel with fitness values that are not negative, the bee colony with positive ones); the hypothesis hinit excludes a refit with initial rules after a fit with more iterations (C52, C54). Mixing with the filter that keeps all rules."
  },
  {
   "property": "C162",
   "status": "partial",
   "theorems": [
    "Suprb.C162_ranked_partial",
    "Suprb.C162_complexity_partial",
    "Suprb.C162_bees_partial",
    "Suprb.C162_signs_refuted",
    "Suprb.C162_bic_refuted"
   ],
   "note": "False for the roulette wheel with PseudoBIC (C162_bic_refuted, for all runs whose first solutions have errors on both sides) and for the bee colony with ComplexityWu (C103_abc_refuted). Proved: random parents, linear ranking and tournaments with every fitness function; all four with ComplexityWu and ComplexityEmary; bee colony with ComplexityEmary."
  },
  {
   "property": "C163",
   "status": "proved",
   "theorems": [
    "Suprb.C163_rule",
    "Suprb.C163_nearly_linear",
    "Suprb.C163_linear"
   ],
   "note": "Exact arithmetic; sklearn's Ridge is described by the function it minimises. Mixing with the filter that keeps all rules. The bound is not 0: linear targets are not learned exactly (example)."
  },
  {
   "property": "C164",
   "status": "partial",
   "theorems": [
    "Suprb.C164_refuted",
    "Suprb.C164_training_partial",
    "Suprb.C164_reported_partial"
   ],
   "note": "Refuted for overlapping rules (a whole run as witness). Proved: the bound k * e if at most k selected rules match the same training sample (so the claim for rules without overlap), the bound by the sum of error times matched samples over the rules with equality without overlap, that no prediction is worse than that of the worst matching rule, and the resulting bound on the error a solution reports. Exact arithmetic; mixing with the filter that keeps all rules."
  },
  {
   "property": "C165",
   "status": "proved",
   "theorems": [
    "Suprb.C165_chance",
    "Suprb.C165_fitter",
    "Suprb.C165_improved"
   ],
   "note": "Exact arithmetic; powers and square roots are any functions that are positive for positive numbers and monotone. The overlaps of a pool are taken as given (C76); pools in which all rules have the same fitness are the subject of C69."
  },
  {
   "property": "C166",
   "status": "proved",
   "theorems": [
    "Suprb.C166_complexityWu",
    "Suprb.C166_complexityEmary",
    "Suprb.C166_volumeWu",
    "Suprb.C166_volumeEmary",
    "Suprb.C166_full_solutions"
   ],
   "note": "Exact arithmetic over the reals. Ties are allowed: any fittest candidate for the smaller alpha is compared with any fittest one for the larger alpha."
  },
  {
   "property": "C167",
   "status": "proved",
   "theorems": [
    "Suprb.C167_children",
    "Suprb.C167_children_and_elitists",
    "Suprb.C167_created_and_kept",
    "Suprb.C167_returned",
    "Suprb.C167_two_children",
    "Suprb.C167_most_novel"
   ],
   "note": "The order of kept and dropped rules is stated for the moment of the selection; scoring the parents afterwards appends further distances to rules in the archive but does not change the selection already made."
  },
  {
   "property": "C168",
   "status": "partial",
   "theorems": [
    "Suprb.C168_alike",
    "Suprb.C168_pool_partial",
    "Suprb.C168_crowded_refuted",
    "Suprb.C168_refuted"
   ],
   "note": "Refuted: the pool can hold the same rule several times (C168_refuted is a whole training), and must once it has 2^N rules (C168_crowded_refuted). Proved: rules of the pool that match the same training samples have the same model, error, experience and predictions, and with an error-only fitness the same fitness."
  },
  {
   "property": "C169",
   "status": "partial",
   "theorems": [
    "Suprb.C169_complexity_partial",
    "Suprb.C169_bic_partial",
    "Suprb.C169_order_refuted",
    "Suprb.C169_falls_refuted",
    "Suprb.C169_run_refuted"
   ],
   "note": "Holds for ComplexityWu and ComplexityEmary, and for PseudoBIC between solutions of which one is at least as accurate and not more complex. Refuted for PseudoBIC, which takes the number of rules of the pool as sample size: falling fitness, reversed order, and whole trainings whose elitist loses fitness for all draws."
  },
  {
   "property": "C170",
   "status": "partial",
   "theorems": [
    "Suprb.C170_partial",
    "Suprb.C170_constraint_refuted",
    "Suprb.C170_initial_refuted",
    "Suprb.C170_roulette_refuted"
   ],
   "note": "Proved for all settings with a delay of at least 1 for &, fitting matching type, initialisation and mutation, complete constraints, positive beta, no initial rules with squared-error origins, and positive rule fitness for the roulette wheel. Each of the last conditions is needed: three refutations."
  },
  {
   "property": "C171",
   "status": "partial",
   "theorems": [
    "Suprb.C171_partial",
    "Suprb.C171_refuted"
   ],
   "note": "Proved for the pool of every fit, except for the minimum range of dimensions that end at a bound under CombinedConstraint; refuted there by a whole run."
  },
  {
   "property": "C172",
   "status": "partial",
   "theorems": [
    "Suprb.C172_partial",
    "Suprb.C172_matching_refuted",
    "Suprb.C172_constraint_refuted",
    "Suprb.C172_crossover_refuted",
    "Suprb.C172_initial_refuted"
   ],
   "note": "Proved for all settings with at least one rule per group (or parent), fitting matching type, initialisation and mutation, complete constraints, positive beta and no initial rules with squared-error origins; novelty search with ordered bounds, or unordered ones without crossover. Four refutations show that these conditions are needed."
  },
  {
   "property": "C173",
   "status": "partial",
   "theorems": [
    "Suprb.C173_partial",
    "Suprb.C173_refuted"
   ],
   "note": "Proved for the pool of every fit with either search, except for the minimum range of dimensions that end at a bound under CombinedConstraint; refuted there by a whole run of each search."
  },
  {
   "property": "C174",
   "status": "partial",
   "theorems": [
    "Suprb.C174_evolution_partial",
    "Suprb.C174_search_partial",
    "Suprb.C174_refuted"
   ],
   "note": "Proved up to the factor max(1, k / beta), k the largest number of selected rules that match the same training sample, for all completed fits; refuted by a whole run with two overlapping rules and the default beta."
  },
  {
   "property": "C175",
   "status": "proved",
   "theorems": [
    "Suprb.C175_mixture",
    "Suprb.C175_worst_rule",
    "Suprb.C175_filters"
   ],
   "note": "Default filter (C175_mixture, C175_worst_rule) and all filters (C175_filters, with the rules the filter keeps); experience calculations with positive values, rules with positive error and experience (all fitted rules, C15)."
  },
  {
   "property": "C176",
   "status": "proved",
   "theorems": [
    "Suprb.C176_samples",
    "Suprb.C176_linear",
    "Suprb.C176_models",
    "Suprb.C176_share"
   ],
   "note": "All four filters with any state of their generator; the share of a single rule with the default filter. Experience calculations with positive values."
  },
  {
   "property": "C177",
   "status": "proved",
   "theorems": [
    "Suprb.C177_moves",
    "Suprb.C177_accuracy",
    "Suprb.C177_error"
   ],
   "note": "Default filter; experience calculations with positive values. The error of the solution is compared for rules trained on the same data (C20)."
  },
  {
   "property": "C178",
   "status": "proved",
   "theorems": [
    "Suprb.C178_undominated",
    "Suprb.C178_complexity"
   ],
   "note": "All populations and archives of all iterations. ComplexityWu with alpha not 0, ComplexityEmary with alpha strictly between 0 and 1; rule discovery that finds at most the requested number of rules (C49). Real arithmetic."
  },
  {
   "property": "C179",
   "status": "proved",
   "theorems": [
    "Suprb.C179_iterations",
    "Suprb.C179_complexity"
   ],
   "note": "Every two iterations of every training. ComplexityWu with alpha not 0, ComplexityEmary with alpha strictly between 0 and 1; rule discovery that finds at most the requested number of rules (C49). Real arithmetic."
  },
  {
   "property": "C180",
   "status": "proved",
   "theorems": [
    "Suprb.C180_fitness",
    "Suprb.C180_exact",
    "Suprb.C180_model",
    "Suprb.C180_parts"
   ],
   "note": "Every completed training and every combination of parts of C161. Real arithmetic; rule discovery that finds at most the requested number of rules (C49)."
  },
  {
   "property": "C181",
   "status": "proved",
   "theorems": [
    "Suprb.C181_fitness",
    "Suprb.C181_rule",
    "Suprb.C181_default",
    "Suprb.C181_pseudoAccuracy"
   ],
   "note": "Whole trainings with the default components (evolution strategy with ordered bounds, all settings of C79), and single fitted rules with ordered bounds inside the input space. Real arithmetic."
  },
  {
   "property": "C182",
   "status": "partial",
   "theorems": [
    "Suprb.Comp.C182_given_partial",
    "Suprb.Comp.C182_again_partial",
    "Suprb.Comp.C182_used_partial",
    "Suprb.Comp.C182_set_params_refuted",
    "Suprb.Comp.C182_used_refuted",
    "Suprb.Comp.C182_default_refuted"
   ],
   "note": "Refuted in the code in three ways (later set_params, propagated values, default components). Proved: the record is exactly the configured parameters at every depth, is not changed by trainings, and for a given rule discovery these are the values used except n_jobs, matching types and empty bounds. Missing: those exceptions, default components, and that set_params leaves the record alone; all false."
  },
  {
   "property": "C183",
   "status": "partial",
   "theorems": [
    "Suprb.C183_same_partial",
    "Suprb.C183_any_partial",
    "Suprb.C183_messages_partial",
    "Suprb.C183_ordered_partial",
    "Suprb.C183_failure_partial",
    "Suprb.C183_silent_refuted",
    "Suprb.C183_again_refuted"
   ],
   "note": "Refuted for repeated training (step_ is not reset) and, with n_rules=0, for failures before the message of an iteration. Proved with arbitrary components: the messages of all trainings, where those before the first iteration carry the number of the last iteration of the previous training; for first trainings their order; and, for n_rules > 0, that the last message of a failed first training has the number of the failed iteration. The verbosity does not affect the training. The keys of the missing bounds are an argument of the model (which bounds are missing is C134)."
  },
  {
   "property": "C184",
   "status": "partial",
   "theorems": [
    "Suprb.C184_exact_partial",
    "Suprb.C184_refuted"
   ],
   "note": "Refuted: composition is not skipped after the warning. Proved: the warning appears exactly when the pool is empty after rule discovery, for arbitrary components."
  },
  {
   "property": "C185",
   "status": "partial",
   "theorems": [
    "Suprb.C185_true_partial",
    "Suprb.C185_can_change_partial",
    "Suprb.C185_other_operators_refuted"
   ],
   "note": "Refuted for the operators '+' and ',', which do not use the delay. Proved for '&' in both directions, for arbitrary children, selections and fitness functions: with the warning only the initial rule is returned, without it a valid fitter child that can be its own child is returned for some random numbers."
  },
  {
   "property": "C186",
   "status": "proved",
   "theorems": [
    "Suprb.C186_same",
    "Suprb.C186_exact",
    "Suprb.C186_default"
   ],
   "note": "For arbitrary components (exactness, no effect on the result), and for the default operators (never). A child that fails with an exception ends the run before the warning. Exact arithmetic."
  }
 ]
}