{
 "claims": [
  {
   "property": "C01",
   "status": "proved",
   "theorems": [
    "Verif.C01_inferred_is_closure",
    "Verif.manager_refines_store"
   ],
   "note": "All histories; the closure is defined from get_added_constraint alone; refinement to the abstract store also shows added constraints are those of the history."
  },
  {
   "property": "C02",
   "status": "proved",
   "theorems": [
    "Verif.C02_managed_list",
    "Verif.manager_refines_store"
   ],
   "note": "All initial lists (repetitions included) and histories."
  },
  {
   "property": "C03",
   "status": "proved",
   "theorems": [
    "Verif.C03_never_contradictory"
   ],
   "note": "A satisfying cluster assignment exists after every history."
  },
  {
   "property": "C04",
   "status": "proved",
   "theorems": [
    "Verif.C04_refuses_exactly_unsatisfiable"
   ],
   "note": "Conflict raised iff no satisfying assignment exists for the extended set."
  },
  {
   "property": "C05",
   "status": "proved",
   "theorems": [
    "Verif.C05_raising_call_changes_nothing"
   ],
   "note": "Mutating methods return the manager also when raising, so this is not a modelling artefact."
  },
  {
   "property": "C06",
   "status": "proved",
   "theorems": [
    "Verif.C06_add_constraint_frame"
   ],
   "note": ""
  },
  {
   "property": "C07",
   "status": "proved",
   "theorems": [
    "Verif.C07_delete_constraint_exact"
   ],
   "note": ""
  },
  {
   "property": "C08",
   "status": "proved",
   "theorems": [
    "Verif.C08_delete_data_ID"
   ],
   "note": ""
  },
  {
   "property": "C09",
   "status": "proved",
   "theorems": [
    "Verif.C09_add_data_ID"
   ],
   "note": ""
  },
  {
   "property": "C10",
   "status": "proved",
   "theorems": [
    "Verif.C10_getters_symmetric"
   ],
   "note": ""
  },
  {
   "property": "C11",
   "status": "proved",
   "theorems": [
    "Verif.C11_equivalence_and_congruence"
   ],
   "note": ""
  },
  {
   "property": "C12",
   "status": "proved",
   "theorems": [
    "Verif.C12_components_partition"
   ],
   "note": ""
  },
  {
   "property": "C13",
   "status": "proved",
   "theorems": [
    "Verif.C13_completude_exact"
   ],
   "note": ""
  },
  {
   "property": "C14",
   "status": "proved",
   "theorems": [
    "Verif.C14_max_is_tight"
   ],
   "note": ""
  },
  {
   "property": "C15",
   "status": "proved",
   "theorems": [
    "Verif.C15_range_feasible"
   ],
   "note": "Every pair of visiting orders of the greedy colouring."
  },
  {
   "property": "C16",
   "status": "proved",
   "theorems": [
    "Verif.C16_degenerate",
    "Verif.C16_min_not_a_lower_bound"
   ],
   "note": "The minimum is only an estimate: existence of a manager where fewer clusters are feasible."
  },
  {
   "property": "C17",
   "status": "proved",
   "theorems": [
    "Verif.C17_conflict_report"
   ],
   "note": ""
  },
  {
   "property": "C18",
   "status": "proved",
   "theorems": [
    "Verif.C18_save_load",
    "Verif.C18_self_constraint_exception",
    "Verif.C18_component_order_exception"
   ],
   "note": "Document level; the text level is C23."
  },
  {
   "property": "C19",
   "status": "proved",
   "theorems": [
    "Verif.C19_order_independence"
   ],
   "note": ""
  },
  {
   "property": "C20",
   "status": "proved",
   "theorems": [
    "Verif.C20_monotone"
   ],
   "note": ""
  },
  {
   "property": "C21",
   "status": "proved",
   "theorems": [
    "Verif.C21_only_documented_exceptions",
    "Verif.manager_refines_store"
   ],
   "note": "min/max on an empty manager is under C16."
  },
  {
   "property": "C22",
   "status": "proved",
   "theorems": [
    "Verif.C22_values_are_one"
   ],
   "note": ""
  },
  {
   "property": "C23",
   "status": "proved",
   "theorems": [
    "Verif.C23_text_round_trip",
    "Verif.C23_truncated_refused",
    "Verif.C23_surrogate_exception"
   ],
   "note": "IDs: any code points without a lone high surrogate directly followed by a lone low one (so every unicode text); the exception is proved real. Python's json package is modelled, not imported."
  },
  {
   "property": "C24",
   "status": "proved",
   "theorems": [
    "Verif.C24_samples_well_formed",
    "Verif.C24_no_known_pair"
   ],
   "note": "random.sample is any function returning k elements at distinct positions."
  },
  {
   "property": "C25",
   "status": "proved",
   "theorems": [
    "Verif.C25_sample_size",
    "Verif.C25_sample_succeeds",
    "Verif.C25_limit_cases"
   ],
   "note": ""
  },
  {
   "property": "C26",
   "status": "proved",
   "theorems": [
    "Verif.C26_closest_optimal",
    "Verif.C26_every_eligible_pair_has_a_distance"
   ],
   "note": "Distances in any linear order (no NaN)."
  },
  {
   "property": "C27",
   "status": "proved",
   "theorems": [
    "Verif.C27_farthest_optimal",
    "Verif.C26_every_eligible_pair_has_a_distance"
   ],
   "note": "Distances in any linear order (no NaN)."
  },
  {
   "property": "C28",
   "status": "proved",
   "theorems": [
    "Verif.C28_nothing_left_iff_complete",
    "Verif.C28_default_sample",
    "Verif.C28_default_configuration"
   ],
   "note": ""
  },
  {
   "property": "C29",
   "status": "proved",
   "theorems": [
    "Verif.C29_truthful_session_never_raises",
    "Verif.C29_round_decreases",
    "Verif.C29_session_completes",
    "Verif.C29_components_are_true_clusters",
    "Verif.C29_from_scratch"
   ],
   "note": ""
  },
  {
   "property": "C30",
   "status": "proved",
   "theorems": [
    "Verif.C30_rename",
    "Verif.C30_depends_only_on_partition",
    "Verif.C30_idempotent"
   ],
   "note": ""
  },
  {
   "property": "C31",
   "status": "proved",
   "theorems": [
    "Verif.C31_constraints"
   ],
   "note": "Distances in any linear order (no NaN); shuffle is any permutation; set order arbitrary."
  },
  {
   "property": "C32",
   "status": "proved",
   "theorems": [
    "Verif.C32_labels"
   ],
   "note": ""
  },
  {
   "property": "C33",
   "status": "proved",
   "theorems": [
    "Verif.C33_no_failure",
    "Verif.C33_refused",
    "Verif.C33_init",
    "Verif.C33_empty_manager"
   ],
   "note": "An empty manager raises ValueError (proved)."
  },
  {
   "property": "C34",
   "status": "proved",
   "theorems": [
    "Verif.C34_nearest_admissible"
   ],
   "note": "Every state of every pass of every run."
  },
  {
   "property": "C35",
   "status": "proved",
   "theorems": [
    "Verif.C35_constraints"
   ],
   "note": "Any linkage; any earlier state of the object."
  },
  {
   "property": "C36",
   "status": "proved",
   "theorems": [
    "Verif.C36_no_failure",
    "Verif.C36_refused",
    "Verif.C36_init"
   ],
   "note": "The loops have fuel in the model; outOfFuel is excluded. An empty manager raises ValueError (finding_hier_empty_manager)."
  },
  {
   "property": "C37",
   "status": "proved",
   "theorems": [
    "Verif.C37_dendrogram"
   ],
   "note": ""
  },
  {
   "property": "C38",
   "status": "proved",
   "theorems": [
    "Verif.C38_nested",
    "Verif.C38_cuts"
   ],
   "note": ""
  },
  {
   "property": "C39",
   "status": "proved",
   "theorems": [
    "Verif.C39_iteration",
    "Verif.C39_iteration_exact",
    "Verif.C39_upper",
    "Verif.C39_size_shortfall"
   ],
   "note": "Stronger: the exact number of clusters of a cut by iteration."
  },
  {
   "property": "C40",
   "status": "proved",
   "theorems": [
    "Verif.C40_cut"
   ],
   "note": ""
  },
  {
   "property": "C41",
   "status": "proved",
   "theorems": [
    "Verif.C41_labels",
    "Verif.C41_order"
   ],
   "note": "Distances in any linear order (no NaN); eps at least the distance of a vector to itself."
  },
  {
   "property": "C42",
   "status": "proved",
   "theorems": [
    "Verif.C42_no_failure",
    "Verif.C42_refused",
    "Verif.C42_init",
    "Verif.C42_dead_branches"
   ],
   "note": "C42_dead_branches: lines 351-360 and 386-395 are never executed. The while loop has fuel in the model; it is shown sufficient. A manager without IDs is excluded: vstack raises ValueError there."
  },
  {
   "property": "C43",
   "status": "proved",
   "theorems": [
    "Verif.C43_must_link_violated"
   ],
   "note": "Existence claim, by a witness run of the model."
  },
  {
   "property": "C44",
   "status": "proved",
   "theorems": [
    "Verif.C44_cannot_links"
   ],
   "note": ""
  },
  {
   "property": "C45",
   "status": "proved",
   "theorems": [
    "Verif.C45_matrix",
    "Verif.C45_shape",
    "Verif.C45_diagonal",
    "Verif.C45_symmetric",
    "Verif.C45_labels",
    "Verif.C45_constraints",
    "Verif.C45_no_failure",
    "Verif.C45_refused",
    "Verif.C45_missing_vector",
    "Verif.C45_init"
   ],
   "note": "Kernel and solver are arbitrary functions. C45_symmetric needs a symmetric kernel."
  },
  {
   "property": "C46",
   "status": "proved",
   "theorems": [
    "Verif.C46_must_links",
    "Verif.C46_labels",
    "Verif.C46_never_converges",
    "Verif.C46_no_failure",
    "Verif.C46_refused",
    "Verif.C46_init"
   ],
   "note": "Distances, noise, median and the message updates are arbitrary functions; recorded assumptions (ApAssumptions): the noise and the messages keep the sizes, x + 0 = x. 'Equal similarities' are those off the diagonal. That a run that does not converge gives one single label is part of C61_exemplars."
  },
  {
   "property": "C47",
   "status": "proved",
   "theorems": [
    "Verif.C47_equidistant",
    "Verif.C47_two_ids"
   ],
   "note": "Proved in both modes and also for distances that are all zero. Recorded assumptions (ApDistance): no vector is closer to another vector than to itself, negation is antitone, some entry is at most the median."
  },
  {
   "property": "C48",
   "status": "proved",
   "theorems": [
    "Verif.C48_preprocess"
   ],
   "note": "Under the hypothesis that no component exceeds the recursion limit; C62 shows that it is necessary."
  },
  {
   "property": "C49",
   "status": "proved",
   "theorems": [
    "Verif.C49_empty_clusters"
   ],
   "note": "The arithmetic is arbitrary; the graphs are those of C48."
  },
  {
   "property": "C50",
   "status": "proved",
   "theorems": [
    "Verif.C50_frequencies",
    "Verif.C50_empty",
    "Verif.C50_labels"
   ],
   "note": "Exact rational arithmetic (the code divides floats)."
  },
  {
   "property": "C51",
   "status": "proved",
   "theorems": [
    "Verif.C51_clustering_unknown",
    "Verif.C51_clustering_builds",
    "Verif.C51_clustering_errors",
    "Verif.C51_clustering_defaults",
    "Verif.C51_unknown_option_ignored",
    "Verif.C51_sampling_unknown",
    "Verif.C51_sampling",
    "Verif.C51_sampling_twice",
    "Verif.C51_sampling_distinct",
    "Verif.C51_managing",
    "Verif.C51_agrees_affinity",
    "Verif.C51_agrees_kmeans",
    "Verif.C51_agrees_mpc",
    "Verif.C51_agrees_spectral",
    "Verif.C51_agrees_hierarchical",
    "Verif.C51_agrees_dbscan"
   ],
   "note": "Option values are none, booleans, integers, rationals and strings."
  },
  {
   "property": "C52",
   "status": "proved",
   "theorems": [
    "Verif.C52_preprocess_keys",
    "Verif.C52_preprocess_success",
    "Verif.C52_no_punctuation",
    "Verif.C52_preprocess_value",
    "Verif.C52_filters_remove",
    "Verif.C52_no_combining",
    "Verif.C52_result_punctFree",
    "Verif.C52_decomposition_may_restore",
    "Verif.C52_preprocess_local",
    "Verif.C52_vectorize_tfidf",
    "Verif.C52_vectorize_spacy",
    "Verif.C52_vectorize_unknown",
    "Verif.C52_vectorize_keys",
    "Verif.C52_pipeline"
   ],
   "note": "spaCy, the TF-IDF vectorizer and the Unicode functions are arbitrary functions."
  },
  {
   "property": "C53",
   "status": "proved",
   "theorems": [
    "Verif.C53_kmeans",
    "Verif.C53_hierarchical",
    "Verif.C53_dbscan",
    "Verif.C53_spectral",
    "Verif.C53_affinity",
    "Verif.C53_mpckmeans",
    "Verif.C53_kmeans_model",
    "Verif.C53_hierarchical_model",
    "Verif.C53_dbscan_model",
    "Verif.C53_spectral_model",
    "Verif.C53_affinity_model",
    "Verif.C53_mpckmeans_model"
   ],
   "note": "Object-level models with every attribute access; the `_model` theorems carry the other properties over to used objects."
  },
  {
   "property": "C54",
   "status": "proved",
   "theorems": [
    "Verif.C54_closest_merge"
   ],
   "note": "Distances in any linear order (no NaN)."
  },
  {
   "property": "C55",
   "status": "proved",
   "theorems": [
    "Verif.C55_cut_is_merging_state"
   ],
   "note": ""
  },
  {
   "property": "C56",
   "status": "proved",
   "theorems": [
    "Verif.C56_density_labels",
    "Verif.C56_without_cannot_links"
   ],
   "note": ""
  },
  {
   "property": "C57",
   "status": "proved",
   "theorems": [
    "Verif.C57_core_ids_ignored"
   ],
   "note": "Existence claim, by a witness run of the model."
  },
  {
   "property": "C58",
   "status": "proved",
   "theorems": [
    "Verif.C58_core_clusters"
   ],
   "note": ""
  },
  {
   "property": "C59",
   "status": "proved",
   "theorems": [
    "Verif.C59_labels_of_clusters"
   ],
   "note": ""
  },
  {
   "property": "C60",
   "status": "proved",
   "theorems": [
    "Verif.C60_cannot_links_ignored"
   ],
   "note": ""
  },
  {
   "property": "C61",
   "status": "proved",
   "theorems": [
    "Verif.C61_exemplars"
   ],
   "note": ""
  },
  {
   "property": "C62",
   "status": "proved",
   "theorems": [
    "Verif.C62_recursion",
    "Verif.C62_cluster"
   ],
   "note": "The recursion limit is a parameter: the number of nested calls of _dfs that fit on the stack."
  },
  {
   "property": "C63",
   "status": "proved",
   "theorems": [
    "Verif.C63_result",
    "Verif.C63_managed",
    "Verif.C63_params"
   ],
   "note": "Arithmetic and random choices are arbitrary (MpcAssumptions: a shuffle is a permutation, choices are valid positions)."
  },
  {
   "property": "C64",
   "status": "proved",
   "theorems": [
    "Verif.C64_fewer_vectors",
    "Verif.C64_equal_points",
    "Verif.C64_single",
    "Verif.C64_success"
   ],
   "note": "C64_success assumes two points apart for every metric that may come up."
  },
  {
   "property": "C65",
   "status": "proved",
   "theorems": [
    "Verif.C65_positions",
    "Verif.C65_order_matters"
   ],
   "note": ""
  },
  {
   "property": "C66",
   "status": "proved",
   "theorems": [
    "Verif.C66_greedy"
   ],
   "note": "Exact arithmetic (any ordered commutative monoid)."
  },
  {
   "property": "C67",
   "status": "proved",
   "theorems": [
    "Verif.C67_same_ids",
    "Verif.C67_other_ids"
   ],
   "note": ""
  },
  {
   "property": "C68",
   "status": "proved",
   "theorems": [
    "Verif.C68_must_links_needed",
    "Verif.C68_cannot_links_needed",
    "Verif.C68_cost",
    "Verif.C68_economical"
   ],
   "note": ""
  },
  {
   "property": "C69",
   "status": "proved",
   "theorems": [
    "Verif.C69_complete_forces_partition",
    "Verif.C69_same_result",
    "Verif.C69_dbscan_refines"
   ],
   "note": ""
  },
  {
   "property": "C70",
   "status": "proved",
   "theorems": [
    "Verif.C70_loop_never_raises",
    "Verif.C70_loop_finds_truth"
   ],
   "note": "The loop itself is not a function of the package: it is a program over its API (Spec/Loop.lean)."
  },
  {
   "property": "C71",
   "status": "proved",
   "theorems": [
    "Verif.C71_nothing_in_same_cluster",
    "Verif.C71_nothing_across_clusters"
   ],
   "note": ""
  },
  {
   "property": "C72",
   "status": "proved",
   "theorems": [
    "Verif.C72_documented_program",
    "Verif.C72_truthful",
    "Verif.C72_single_class_fails"
   ],
   "note": "The program is that of docs/usage.md from the initial clustering on (Spec/Usage.lean); preprocessing and vectorization are not part of it."
  },
  {
   "property": "C73",
   "status": "proved",
   "theorems": [
    "Verif.C73_objects_refine_values",
    "Verif.C73_getters",
    "Verif.C73_sharing_is_safe",
    "Verif.C73_only_value_errors"
   ],
   "note": "Second model of the manager with addresses (Model/Heap.lean); to_json, minMax and the conflict report are functions of what the modelled getters and attributes contain and have no second model."
  },
  {
   "property": "C74",
   "status": "proved",
   "theorems": [
    "Verif.C74_every_merge",
    "Verif.C74_monotone",
    "Verif.C74_single_chain",
    "Verif.C74_single_gap",
    "Verif.C74_complete_diameter",
    "Verif.finding_average_inversion",
    "Verif.finding_ward_inversion"
   ],
   "note": "The metric is a parameter, assumed symmetric. The two last theorems are existence claims, by witness runs in exact arithmetic (squares of distances for average)."
  },
  {
   "property": "C75",
   "status": "proved",
   "theorems": [
    "Verif.C75_inertia",
    "Verif.C75_converges",
    "Verif.euclid_exact",
    "Verif.C75_must_link_cycles",
    "Verif.C75_must_link_increases"
   ],
   "note": "Exact arithmetic as assumptions on the environment (ExactKMeans); euclid_exact proves them for real inner product spaces with the euclidean distance. The witness runs are in the rational plane with squares of distances."
  },
  {
   "property": "C76",
   "status": "proved",
   "theorems": [
    "Verif.C76_messages",
    "Verif.C76_assumptions",
    "Verif.C76_refinement"
   ],
   "note": "Exact arithmetic of an ordered field (Model/Messages.lean); floating point rounding is not modelled."
  },
  {
   "property": "C77",
   "status": "proved",
   "theorems": [
    "Verif.C77_two_closures",
    "Verif.C77_isolated"
   ],
   "note": "Exact arithmetic. C77_two_closures supposes more iterations than needed for convergence and that noise keeps every ID more similar to itself than to IDs of the other closure."
  },
  {
   "property": "C78",
   "status": "proved",
   "theorems": [
    "Verif.C78_three_closures",
    "Verif.C78_three_closures_tie",
    "Verif.finding_relative_must_link"
   ],
   "note": "Exact arithmetic. The last theorem is an existence claim, by a witness run."
  },
  {
   "property": "C79",
   "status": "proved",
   "theorems": [
    "Verif.C79_metric",
    "Verif.C79_penalties",
    "Verif.C79_update",
    "Verif.C79_log_det",
    "Verif.C79_nearest"
   ],
   "note": "Exact arithmetic of an ordered field (Model/MPCExact.lean); rounding is not modelled."
  },
  {
   "property": "C80",
   "status": "proved",
   "theorems": [
    "Verif.C80_pass",
    "Verif.C80_converges",
    "Verif.C80_reached"
   ],
   "note": "Exact arithmetic over the real numbers. Rounding is not modelled."
  },
  {
   "property": "C81",
   "status": "proved",
   "theorems": [
    "Verif.C81_satisfied",
    "Verif.C81_violated",
    "Verif.C81_heavy"
   ],
   "note": "Exact arithmetic. C81_violated is an existence claim (one manager, four vectors) for all weights, shuffles and numbers of passes."
  },
  {
   "property": "C82",
   "status": "proved",
   "theorems": [
    "Verif.C82_export",
    "Verif.C82_deep",
    "Verif.C82_add_children",
    "Verif.C82_add_breaks"
   ],
   "note": "The number of nested calls that Python allows is a parameter."
  },
  {
   "property": "C83",
   "status": "proved",
   "theorems": [
    "Verif.C83_no_gap",
    "Verif.C83_regular",
    "Verif.C83_noise",
    "Verif.C83_core_ignored",
    "Verif.C83_not_connected"
   ],
   "note": "The last two theorems are existence claims, by witness runs. The metric need not be symmetric."
  },
  {
   "property": "C84",
   "status": "proved",
   "theorems": [
    "Verif.C84_set_order",
    "Verif.C84_none_id"
   ],
   "note": "C84_none_id is an existence claim, by a witness run."
  },
  {
   "property": "C85",
   "status": "proved",
   "theorems": [
    "Verif.C85_kmeans",
    "Verif.C85_hierarchical",
    "Verif.C85_dbscan",
    "Verif.C85_spectral",
    "Verif.C85_affinity",
    "Verif.C85_sampling",
    "Verif.C85_mpckmeans_differs"
   ],
   "note": "The last theorem is an existence claim, by a witness run."
  },
  {
   "property": "C86",
   "status": "proved",
   "theorems": [
    "Verif.C86_manager",
    "Verif.C86_component_lists",
    "Verif.C86_component_order",
    "Verif.C86_kmeans",
    "Verif.C86_hierarchical",
    "Verif.C86_spectral",
    "Verif.C86_affinity",
    "Verif.C86_mpckmeans",
    "Verif.C86_sampling",
    "Verif.C86_dbscan",
    "Verif.C86_dbscan_names"
   ],
   "note": "C86_component_order and C86_dbscan_names are existence claims, by witness runs. The orders of sets of COP-KMeans are those of cluster numbers, not of IDs, so they are the same; the shuffle must commute with the renaming."
  },
  {
   "property": "C87",
   "status": "proved",
   "theorems": [
    "Verif.C87_components",
    "Verif.C87_complete",
    "Verif.C87_violated",
    "Verif.exactSpec_exists"
   ],
   "note": "Exact real arithmetic; IdealSpectral is what scikit-learn's solver approximates (relaxed normalised cut, then k-means). exactSpec_exists shows that such a solver exists. C87_violated is about one family of inputs and all ideal solvers."
  },
  {
   "property": "C88",
   "status": "proved",
   "theorems": [
    "Verif.C88_no_more",
    "Verif.C88_equal_vectors",
    "Verif.C88_alone",
    "Verif.C88_too_many"
   ],
   "note": "C88_too_many is a family of witnesses, one for each N; it assumes that the mean of one vector is that vector and that a vector is nearer to itself than to others."
  },
  {
   "property": "C89",
   "status": "proved",
   "theorems": [
    "Verif.C89_manager",
    "Verif.C89_save_load",
    "Verif.C89_kmeans",
    "Verif.C89_dbscan",
    "Verif.C89_spectral",
    "Verif.C89_mpckmeans",
    "Verif.C89_affinity",
    "Verif.C89_hierarchical",
    "Verif.C89_sampling",
    "Verif.C89_sampling_added",
    "Verif.C89_average_rounding"
   ],
   "note": "The last two theorems are existence claims, by witness runs."
  },
  {
   "property": "C90",
   "status": "proved",
   "theorems": [
    "Verif.C90_sampling",
    "Verif.C90_hierarchical_order",
    "Verif.C90_hierarchical_distances",
    "Verif.C90_hierarchical_moved",
    "Verif.C90_average_order",
    "Verif.C90_kmeans",
    "Verif.C90_dbscan",
    "Verif.C90_dbscan_unit",
    "Verif.C90_spectral",
    "Verif.C90_affinity",
    "Verif.C90_real_kmeans",
    "Verif.C90_real_hierarchical",
    "Verif.C90_real_sampling",
    "Verif.C90_real_dbscan"
   ],
   "note": "The _real_ theorems are about exact real arithmetic; for the images of means the target space must be strictly convex (Euclidean spaces are). C90_average_order and C90_dbscan_unit are existence claims, by witness runs."
  },
  {
   "property": "C91",
   "status": "proved",
   "theorems": [
    "Verif.C91_rounds",
    "Verif.C91_from_scratch",
    "Verif.C91_asked",
    "Verif.C91_least",
    "Verif.C91_closest",
    "Verif.C91_farthest",
    "Verif.C91_attained"
   ],
   "note": "The session is a program over the API, as in C29; the package has no function for it."
  },
  {
   "property": "C92",
   "status": "proved",
   "theorems": [
    "Verif.C92_exact",
    "Verif.C92_enough",
    "Verif.C92_needed",
    "Verif.C92_self",
    "Verif.C92_undo"
   ],
   "note": ""
  },
  {
   "property": "C93",
   "status": "proved",
   "theorems": [
    "Verif.C93_hierarchical",
    "Verif.C93_distinct_distances",
    "Verif.C93_sampling",
    "Verif.C93_ties",
    "Verif.C93_dbscan_order",
    "Verif.C93_kmeans_order"
   ],
   "note": "Exact arithmetic (sums do not depend on the order)."
  },
  {
   "property": "C94",
   "status": "proved",
   "theorems": [
    "Verif.C94_recluster",
    "Verif.C94_respects",
    "Verif.C94_one"
   ],
   "note": ""
  },
  {
   "property": "C95",
   "status": "proved",
   "theorems": [
    "Verif.C95_centroids",
    "Verif.C95_labels_differ",
    "Verif.C95_missing_label"
   ],
   "note": "The keys are the labels before the renaming of the returned dictionary."
  },
  {
   "property": "C96",
   "status": "proved",
   "theorems": [
    "Verif.C96_sample",
    "Verif.C96_sample_too_many",
    "Verif.C96_shuffle",
    "Verif.C96_each_order",
    "Verif.C96_sampler",
    "Verif.C96_chance",
    "Verif.C96_initial_centroids"
   ],
   "note": "The generator behind randbelow is not modelled: the theorems count the lists of numbers it may return."
  },
  {
   "property": "C97",
   "status": "proved",
   "theorems": [
    "Verif.C97_rounding",
    "Verif.C97_frequencies",
    "Verif.C97_sizes",
    "Verif.C97_one",
    "Verif.C97_sum",
    "Verif.C97_sum_not_one"
   ],
   "note": "Binary64 without overflow and subnormals, which quotients of two list lengths do not reach."
  },
  {
   "property": "C98",
   "status": "proved",
   "theorems": [
    "Verif.C98_printable",
    "Verif.C98_bytes",
    "Verif.C98_round_trip",
    "Verif.C98_truncated",
    "Verif.utf8_ascii",
    "Verif.latin1_ascii"
   ],
   "note": "A file is a list of bytes; missing directories, rights and a full disk are not modelled."
  },
  {
   "property": "C99",
   "status": "proved",
   "theorems": [
    "Verif.C99_sqrt",
    "Verif.C99_distance",
    "Verif.C99_square",
    "Verif.C99_error",
    "Verif.C99_scale",
    "Verif.C99_scale_hierarchical",
    "Verif.C99_zero",
    "Verif.C99_not_symmetric",
    "Verif.C99_no_triangle",
    "Verif.C99_moved"
   ],
   "note": "Binary64 without overflow and subnormals. The last four theorems are witnesses (C99_zero: one for each power of two)."
  },
  {
   "property": "C100",
   "status": "proved",
   "theorems": [
    "Verif.C100_accepted",
    "Verif.C100_meaning",
    "Verif.C100_only_contents",
    "Verif.C100_errors",
    "Verif.C100_contradiction"
   ],
   "note": "Lists of IDs that are all numbers are refused by the model and accepted by the code; nesting beyond python's recursion limit is not modelled."
  },
  {
   "property": "C101",
   "status": "proved",
   "theorems": [
    "Verif.C101_generator",
    "Verif.C101_sample",
    "Verif.C101_shuffle",
    "Verif.C101_sampler",
    "Verif.C101_sampler_seed",
    "Verif.C101_kmeans",
    "Verif.C101_kmeans_seed",
    "Verif.C101_positions",
    "Verif.C101_centroids",
    "Verif.C101_repeat",
    "Verif.C101_unseeded",
    "Verif.C101_replaced"
   ],
   "note": "The rejection loops of randbelow and of sample have fuel in the model; they end with probability one and no bound on their length exists."
  },
  {
   "property": "C102",
   "status": "proved",
   "theorems": [
    "Verif.C102_succeeds",
    "Verif.C102_terms",
    "Verif.C102_rows",
    "Verif.C102_distances",
    "Verif.C102_order",
    "Verif.C102_equal",
    "Verif.C102_program",
    "Verif.C102_truthful",
    "Verif.C102_documentation",
    "Verif.C102_context"
   ],
   "note": "The behaviour of scikit-learn's TfidfVectorizer is modelled from its documentation, in exact arithmetic; its code is not in the repository."
  },
  {
   "property": "C103",
   "status": "proved",
   "theorems": [
    "Verif.C103_isolated_group",
    "Verif.C103_separated",
    "Verif.C103_must_linked_ignored"
   ],
   "note": "Same assumptions as C41 (`DbAssumptions`: set enumeration, distance of a vector to itself at most eps)."
  },
  {
   "property": "C104",
   "status": "proved",
   "theorems": [
    "Verif.C104_iteration",
    "Verif.C104_cluster",
    "Verif.C104_single_complete",
    "Verif.C104_average",
    "Verif.C104_ward",
    "Verif.C104_size_needed",
    "Verif.C104_ward_needed"
   ],
   "note": "Average and ward in exact real arithmetic (`realHier`), without rounding."
  },
  {
   "property": "C105",
   "status": "proved",
   "theorems": [
    "Verif.C105_classes",
    "Verif.C105_gap",
    "Verif.C105_initial_needed"
   ],
   "note": "`KMeansEnv.Ok` as for C31; `C105_gap` in exact real arithmetic."
  },
  {
   "property": "C106",
   "status": "proved",
   "theorems": [
    "Verif.C106_objects_refine_values",
    "Verif.C106_unshared",
    "Verif.C106_later_call"
   ],
   "note": "No assumption on the environment."
  },
  {
   "property": "C107",
   "status": "proved",
   "theorems": [
    "Verif.C107_iteration",
    "Verif.C107_cluster",
    "Verif.C107_chained",
    "Verif.C107_never_spoiled",
    "Verif.C107_session",
    "Verif.C107_spoiled",
    "Verif.C107_spoiled_size",
    "Verif.C107_ties_needed",
    "Verif.C107_spoiled_kmeans",
    "Verif.C107_spoiled_dbscan"
   ],
   "note": "The metric is assumed symmetric; ties are excluded where stated, and `C107_ties_needed` shows that they must be."
  },
  {
   "property": "C108",
   "status": "proved",
   "theorems": [
    "Verif.C108_refused_iff",
    "Verif.C108_any_order",
    "Verif.C108_one_mistake",
    "Verif.C108_one_at_a_time",
    "Verif.C108_two_at_a_time",
    "Verif.C108_least_notices_none",
    "Verif.C108_cost",
    "Verif.C108_cost_attained"
   ],
   "note": "A mistake is the other of the two constraint types. All constraints have value 1, as the manager stores nothing else."
  },
  {
   "property": "C109",
   "status": "proved",
   "theorems": [
    "Verif.C109_objects_refine_values",
    "Verif.C109_unshared",
    "Verif.C109_export_shares",
    "Verif.C109_export_change",
    "Verif.C109_export_change_seen",
    "Verif.C109_old_lists",
    "Verif.C109_copy_needed"
   ],
   "note": "No assumption on the environment."
  },
  {
   "property": "C110",
   "status": "proved",
   "theorems": [
    "Verif.C110_together",
    "Verif.C110_classes",
    "Verif.C110_no_annotation_needed",
    "Verif.C110_regular",
    "Verif.C110_chain_not_found"
   ],
   "note": "`DbAssumptions` as for C41."
  },
  {
   "property": "C111",
   "status": "proved",
   "theorems": [
    "Verif.C111_same_tree",
    "Verif.C111_hierarchical",
    "Verif.C111_near_best",
    "Verif.C111_linkage",
    "Verif.C111_gap",
    "Verif.C111_ward",
    "Verif.C111_dbscan",
    "Verif.C111_sampling_near",
    "Verif.C111_sampling",
    "Verif.C111_float_distances",
    "Verif.C111_float_hierarchical",
    "Verif.C111_margin_needed"
   ],
   "note": "The exact distances need not be symmetric and the computed ones neither (C99). Rounding of means and of the ward sum enters through `LinkageWithin`; only single and complete linkage are instantiated for binary64 here (C123 has the others)."
  },
  {
   "property": "C112",
   "status": "proved",
   "theorems": [
    "Verif.C112_stored",
    "Verif.C112_errors",
    "Verif.C112_refines",
    "Verif.C112_same",
    "Verif.C112_lost",
    "Verif.C112_foreign",
    "Verif.C112_example"
   ],
   "note": "`MpcAssumptions` as for C48; at least one iteration, as the constructor demands."
  },
  {
   "property": "C113",
   "status": "proved",
   "theorems": [
    "Verif.C113_inside",
    "Verif.C113_right",
    "Verif.C113_check",
    "Verif.C113_needed"
   ],
   "note": "The annotator answers as the true partition says; `random.sample` returns distinct elements of the list."
  },
  {
   "property": "C114",
   "status": "proved",
   "theorems": [
    "Verif.C114_enough",
    "Verif.C114_least",
    "Verif.C114_confirm",
    "Verif.C114_hierarchical",
    "Verif.C114_kmeans"
   ],
   "note": "The annotator answers as the true classes say; assumptions on parameters as for C70, C104 and C105."
  },
  {
   "property": "C115",
   "status": "proved",
   "theorems": [
    "Verif.C115_stream",
    "Verif.C115_seed",
    "Verif.C115_bits",
    "Verif.C115_sign"
   ],
   "note": "CPython's _randommodule.c, written down independently of the model of C101: the recurrence instead of the array that is overwritten, and init_by_array as loops over an array."
  },
  {
   "property": "C116",
   "status": "proved",
   "theorems": [
    "Verif.C116_distance",
    "Verif.C116_corrects",
    "Verif.C116_cost",
    "Verif.C116_attained"
   ],
   "note": "Recovering the classes is not done by the library; it only refuses a conflicting annotation."
  },
  {
   "property": "C117",
   "status": "proved",
   "theorems": [
    "Verif.C117_classes",
    "Verif.C117_gap",
    "Verif.C117_weights",
    "Verif.C117_metric"
   ],
   "note": "Exact arithmetic; the witnesses use one shuffle and one first centre, with vectors whose distances in the run are rational."
  },
  {
   "property": "C118",
   "status": "proved",
   "theorems": [
    "Verif.C118_motion",
    "Verif.C118_unit",
    "Verif.C118_unit_matters",
    "Verif.C118_rotation"
   ],
   "note": "Exact arithmetic; the square root is assumed to be multiplied by s for the squared distances between the means of components, which holds for the real square root."
  },
  {
   "property": "C119",
   "status": "proved",
   "theorems": [
    "Verif.C119_shuffle",
    "Verif.C119_choice",
    "Verif.C119_uniform",
    "Verif.C119_orders",
    "Verif.C119_pick",
    "Verif.C119_chance",
    "Verif.C119_chance_rounded",
    "Verif.C119_run",
    "Verif.C119_numpy",
    "Verif.C119_seed"
   ],
   "note": "numpy's legacy generator as in numpy/random/mtrand.pyx, checked against known values; lists shorter than 2^32; repeated draws take fuel."
  },
  {
   "property": "C120",
   "status": "proved",
   "theorems": [
    "Verif.C120_cycle"
   ],
   "note": "Exact arithmetic, weight 1. The code shuffles at random, so it leaves the cycle when another order is drawn."
  },
  {
   "property": "C121",
   "status": "proved",
   "theorems": [
    "Verif.C121_decisions",
    "Verif.C121_margin",
    "Verif.C121_gap",
    "Verif.C121_near_best",
    "Verif.C121_float_mean",
    "Verif.C121_float_centers",
    "Verif.C121_float_stops",
    "Verif.C121_float",
    "Verif.C121_needed"
   ],
   "note": "Binary64 for vectors of one coordinate (C122 has the others); overflow and subnormal numbers are not modelled."
  },
  {
   "property": "C122",
   "status": "proved",
   "theorems": [
    "Verif.C122_dot",
    "Verif.C122_sparse",
    "Verif.C122_error",
    "Verif.C122_distances",
    "Verif.C122_hierarchical",
    "Verif.C122_dbscan",
    "Verif.C122_sampling",
    "Verif.C122_centers",
    "Verif.C122_stops",
    "Verif.C122_kmeans",
    "Verif.C122_one",
    "Verif.C122_order"
   ],
   "note": "Overflow and subnormal numbers are not modelled. The sum of the entries of one coordinate in a mean is taken in the order of the code (python's sum)."
  },
  {
   "property": "C123",
   "status": "proved",
   "theorems": [
    "Verif.C123_sum",
    "Verif.C123_average_within",
    "Verif.C123_ward_within",
    "Verif.C123_average",
    "Verif.C123_ward",
    "Verif.C123_near_best",
    "Verif.C123_versions"
   ],
   "note": "Overflow and subnormal numbers are not modelled. C123_versions is a witness, computed with distances of vectors with one entry."
  },
  {
   "property": "C124",
   "status": "proved",
   "theorems": [
    "Verif.C124_rows",
    "Verif.C124_entry",
    "Verif.C124_distance",
    "Verif.C124_words",
    "Verif.C124_vectors",
    "Verif.C124_distances",
    "Verif.C124_hierarchical",
    "Verif.C124_dbscan",
    "Verif.C124_sampling",
    "Verif.C124_centers",
    "Verif.C124_stops",
    "Verif.C124_kmeans",
    "Verif.C124_truthful",
    "Verif.C124_equal"
   ],
   "note": "Overflow and subnormal numbers are not modelled. scikit-learn's code is not in the repository; the operations are those of TfidfTransformer and normalize."
  },
  {
   "property": "C125",
   "status": "proved",
   "theorems": [
    "Verif.C125_round",
    "Verif.C125_overflow",
    "Verif.C125_add",
    "Verif.C125_distance",
    "Verif.C125_mean",
    "Verif.C125_underflow",
    "Verif.C125_infinite",
    "Verif.C125_tfidf",
    "Verif.C125_vectors",
    "Verif.C125_distances",
    "Verif.C125_hierarchical",
    "Verif.C125_dbscan",
    "Verif.C125_sampling",
    "Verif.C125_kmeans",
    "Verif.C125_truthful"
   ],
   "note": "`none` stands for every result that is not finite (infinity and NaN are not distinguished). scikit-learn's code is not in the repository."
  },
  {
   "property": "C126",
   "status": "proved",
   "theorems": [
    "Verif.C126_sum",
    "Verif.C126_average_within",
    "Verif.C126_ward_within",
    "Verif.C126_average",
    "Verif.C126_ward",
    "Verif.C126_near_best"
   ],
   "note": "The model of the TF-IDF vectors and of scikit-learn's distances is that of C124 and C125."
  },
  {
   "property": "C127",
   "status": "proved",
   "theorems": [
    "Verif.C127_same",
    "Verif.C127_objective",
    "Verif.C127_rounded",
    "Verif.C127_tie"
   ],
   "note": "The means and the update of the metric are exact in C127_rounded; C127_same allows errors there too. Runs of the exact algorithm that end with an exception are not covered."
  },
  {
   "property": "C128",
   "status": "proved",
   "theorems": [
    "Verif.C128_same",
    "Verif.C128_messages",
    "Verif.C128_rounded",
    "Verif.C128_noise",
    "Verif.C128_tie"
   ],
   "note": "The bound on the error of the messages grows like a power of the number of groups, so after many iterations it asks for a large margin: it is a worst case. In C128_rounded the results of an iteration are rounded, not each operation in it; C128_same allows any error per iteration. Runs of the exact algorithm that end with an exception, absolute_must_links=False and the early return of line 304 are not covered."
  },
  {
   "property": "C129",
   "status": "proved",
   "theorems": [
    "Verif.C129_iteration",
    "Verif.C129_near",
    "Verif.C129_same"
   ],
   "note": "The exponent of a number is not limited in this model of binary64. The errors of the distances and of the noise enter as the bound σ on the similarities after line 316. The rest as in C128: absolute must-links, no early return at line 304."
  },
  {
   "property": "C130",
   "status": "proved",
   "theorems": [
    "Verif.C130_noise",
    "Verif.C130_skips",
    "Verif.C130_same",
    "Verif.C130_rounding",
    "Verif.C130_sum",
    "Verif.C130_distances"
   ],
   "note": "The exponent of a number is not limited in this model of binary64. The random numbers are the same in both runs (C128 compares runs with other random numbers). The margins of the decisions are those of C128. The example computes everything after the vectors in binary64, for points on a line."
  }
 ]
}
