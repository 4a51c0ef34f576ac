{
 "claims": [
  {
   "property": "C01",
   "status": "proved",
   "theorems": [
    "C01_findMaxClique_exact",
    "C01_findMaxClique_result"
   ],
   "note": ""
  },
  {
   "property": "C02",
   "status": "proved",
   "theorems": [
    "C02_read_faithful",
    "C02_joined_symm_irrefl"
   ],
   "note": ""
  },
  {
   "property": "C03",
   "status": "proved",
   "theorems": [
    "C03_heuristic_size"
   ],
   "note": ""
  },
  {
   "property": "C04",
   "status": "partial",
   "theorems": [
    "C04_heuristic_indices_partial",
    "C04_false_duplicate",
    "C04_false_not_joined"
   ],
   "note": "The property is false of the code: concrete matrices give duplicate and non-adjacent indices. Proved instead: the indices are in range and enough of them are returned."
  },
  {
   "property": "C05",
   "status": "proved",
   "theorems": [
    "C05_cluster_exact",
    "C05_all_consistent",
    "C05_incremental_cluster"
   ],
   "note": ""
  },
  {
   "property": "C06",
   "status": "proved",
   "theorems": [
    "C06_no_out_of_range",
    "C06_empty_matrix"
   ],
   "note": ""
  },
  {
   "property": "C07",
   "status": "proved",
   "theorems": [
    "C07_incremental_zero_or_larger",
    "C07_incremental_first",
    "C07_too_many_new",
    "C07_history_monotone"
   ],
   "note": ""
  },
  {
   "property": "C08",
   "status": "proved",
   "theorems": [
    "C08_compose_monoid",
    "C08_inverse",
    "C08_between_compose",
    "C08_between_node_nonneg",
    "C08_rotation_loss_kept",
    "C08_rotation_flag"
   ],
   "note": ""
  },
  {
   "property": "C14",
   "status": "proved",
   "theorems": [
    "C14_between_compose",
    "C14_between_backwards",
    "C14_compose_assoc",
    "C14_posSemidef",
    "C14_ofFactor_posSemidef",
    "C14_posDef",
    "C14_rotation_loss_kept"
   ],
   "note": ""
  },
  {
   "property": "C32",
   "status": "proved",
   "theorems": [
    "C32_pair_equality",
    "C32_pair_equivalence",
    "C32_pair_hash",
    "C32_one_entry_per_pair"
   ],
   "note": ""
  },
  {
   "property": "C33",
   "status": "proved",
   "theorems": [
    "C33_odometry_same_robot",
    "C33_odometry_no_landmark",
    "C33_overflow_crosses"
   ],
   "note": ""
  },
  {
   "property": "C16",
   "status": "proved",
   "theorems": [
    "C16_layout",
    "C16_odometry_kept"
   ],
   "note": ""
  },
  {
   "property": "C17",
   "status": "partial",
   "theorems": [
    "C17_provenance_partial",
    "C17_false_first_observation"
   ],
   "note": "The full statement is false of the code: the first observation of a landmark is filed and used without any check. Proved for everything else."
  },
  {
   "property": "C18",
   "status": "proved",
   "theorems": [
    "C18_partition",
    "C18_effect"
   ],
   "note": ""
  },
  {
   "property": "C19",
   "status": "proved",
   "theorems": [
    "C19_batch",
    "C19_other",
    "C19_never_decreases"
   ],
   "note": ""
  },
  {
   "property": "C20",
   "status": "proved",
   "theorems": [
    "C20_inliers_le_closures",
    "C20_graph_size"
   ],
   "note": ""
  },
  {
   "property": "C23",
   "status": "partial",
   "theorems": [
    "C23_ignored_stay_out_partial",
    "C23_false_landmarks"
   ],
   "note": "Holds for closures between poses; false of the code for landmark observations by an ignored robot, which stay in the graph."
  },
  {
   "property": "C24",
   "status": "proved",
   "theorems": [
    "C24_ignored_set",
    "C24_ignore_idempotent",
    "C24_revive_undoes_ignore"
   ],
   "note": ""
  },
  {
   "property": "C29",
   "status": "partial",
   "theorems": [
    "C29_removes_priors_partial",
    "C29_idempotent",
    "C29_no_rejection_partial",
    "C29_false_high_prefix"
   ],
   "note": "Proved for prefixes below 128 (all prefixes where char is unsigned); false of the code for prefixes from 128 where char is signed."
  },
  {
   "property": "C21",
   "status": "partial",
   "theorems": [
    "C21_optimizer_not_run",
    "C21_estimates_kept_partial",
    "C21_estimates_kept_one_robot_partial",
    "C21_false_alignment"
   ],
   "note": "The optimizer is never run: proved in full. Existing estimates unchanged: proved without frame alignment, and with it as long as one robot has odometry; false of the code with frame alignment and two robots (estimates are reset to raw odometry)."
  },
  {
   "property": "C34",
   "status": "proved",
   "theorems": [
    "C34_estimate_keys",
    "C34_keys_with_failures",
    "C34_types"
   ],
   "note": ""
  },
  {
   "property": "C35",
   "status": "partial",
   "theorems": [
    "C35_same_graph_partial",
    "C35_false_late_start"
   ],
   "note": "Proved when the first pose of each robot arrives together with its first odometry factor; false otherwise (the trajectory then starts at the current, optimized, estimate)."
  },
  {
   "property": "C36",
   "status": "proved",
   "theorems": [
    "C36_temp_isolated",
    "C36_clear_undoes",
    "C36_never_enter",
    "C36_temp_optimized",
    "C36_temp_factors",
    "C36_temp_keys"
   ],
   "note": ""
  },
  {
   "property": "C39",
   "status": "partial",
   "theorems": [
    "C39_graph",
    "C39_keeps_everything",
    "C39_no_undefined_behaviour_partial",
    "C39_removed_edge",
    "C39_false_getNumLC",
    "C39_false_verbose",
    "C39_false_remove_last"
   ],
   "note": "Everything is kept in order: proved in full. Public methods work: false for getNumLC and for default verbosity with LM (null dereference); proved free of undefined behaviour otherwise."
  },
  {
   "property": "C40",
   "status": "partial",
   "theorems": [
    "C40_duplicate_key_partial",
    "C40_false_no_rejection",
    "C40_retry_fails",
    "C40_estimate_kept"
   ],
   "note": "Proved with outlier rejection; false without (factors are added before the values are checked). C40_estimate_kept (existing estimates survive a failed update) holds in every configuration."
  },
  {
   "property": "C41",
   "status": "partial",
   "theorems": [
    "C41_force_update_partial",
    "C41_false_rejects"
   ],
   "note": "False of the code with outlier rejection: forceUpdate rejects the same closures as update. Proved without outlier rejection."
  },
  {
   "property": "C44",
   "status": "partial",
   "theorems": [
    "C44_remove_by_index",
    "C44_stay_out_partial",
    "C44_false_rebuild"
   ],
   "note": "Immediate effect proved in full; staying out is proved without outlier rejection and false with it: C90 shows that nothing is left of the removal once the graph is built anew."
  },
  {
   "property": "C09",
   "status": "proved",
   "theorems": [
    "C09_running_product",
    "C09_running_product_cov"
   ],
   "note": "Stated for keys reached by the robot's odometry from its first key; elsewhere the code inserts identity poses (C10_false_without_odometry)."
  },
  {
   "property": "C10",
   "status": "partial",
   "theorems": [
    "C10_independent_of_initial_guess_partial",
    "C10_independent_of_initial_guess_cov_partial",
    "C10_false_without_odometry",
    "C10_false_rounding"
   ],
   "note": "Proved for closures whose keys are connected by odometry and exact pose arithmetic; false of the code for keys that have only an initial value, and with rounded arithmetic (C10_false_rounding, a non-associative pose type)."
  },
  {
   "property": "C11",
   "status": "proved",
   "theorems": [
    "C11_no_division_by_zero"
   ],
   "note": ""
  },
  {
   "property": "C12",
   "status": "proved",
   "theorems": [
    "C12_exact_passes_odometry",
    "C12_exact_pass_pairwise",
    "C12_exact_pass_pairwise_two_robots",
    "C12_exact_pass_cov"
   ],
   "note": ""
  },
  {
   "property": "C13",
   "status": "partial",
   "theorems": [
    "C13_both_reversed_partial",
    "C13_false",
    "C13_false_both"
   ],
   "note": "False of the code; proved when both closures are reversed together, for distances that do not change under conjugation (rotation angles, pure translations). C13_false_both: with planar poses even reversing both closures changes the verdict."
  },
  {
   "property": "C15",
   "status": "partial",
   "theorems": [
    "C15_negative_disables_partial",
    "C15_zero_rejects_partial",
    "C15_zero_rejects_cov_partial",
    "C15_monotone_partial",
    "C15_monotone_cov_partial",
    "C15_false_raising_from_negative",
    "C15_false_landmarks"
   ],
   "note": "Disabling and zero: proved for closures. Monotonicity: proved among non-negative thresholds; false from a negative one. For landmark observations a negative threshold does not disable the check."
  },
  {
   "property": "C42",
   "status": "partial",
   "theorems": [
    "C42_last_setter_partial",
    "C42_false"
   ],
   "note": "Proved when no earlier call set a negative threshold; false otherwise (negative thresholds of the other family keep disabling checks)."
  },
  {
   "property": "C22",
   "status": "proved",
   "theorems": [
    "C22_matrix"
   ],
   "note": ""
  },
  {
   "property": "C45",
   "status": "partial",
   "theorems": [
    "C45_keeps_all_partial",
    "C45_negative",
    "C45_incremental_call",
    "C45_incremental_one",
    "C45_false_incremental"
   ],
   "note": "Proved with batch selection; false of the code with incremental selection, where a stale one by one matrix keeps at most one closure of a pair. C45_incremental_call and C45_incremental_one say exactly what is accepted then: only ever the first registered closure of the pair, from the first call that registers exactly one closure of the pair."
  },
  {
   "property": "C27",
   "status": "partial",
   "theorems": [
    "C27_update_partial",
    "C27_false_mismatch",
    "C27_false_out_of_range",
    "C27_false_emptied",
    "C27_false_leftover",
    "C27_leftover_arises"
   ],
   "note": "False in general: after removing by robot pair, adding a closure to the same pair can hit an Eigen size mismatch, and adding to another pair can raise out_of_range (both witnessed). C27_false_emptied and C27_false_leftover prove it false of every state in which removals left a pair with none of its closures, or with one of two: no update with a closure (of other pairs; of any pair, if the two were consistent) returns any more. Proved: an update call never reaches undefined behaviour nor raises out_of_range when all supplied measurements have Gaussian noise and landmark observations start at a pose, and no removal precedes it, or every registered pair still has enough closures, or neither the loop check nor the incremental mode is on."
  },
  {
   "property": "C37",
   "status": "proved",
   "theorems": [
    "C37_one_weight_per_factor",
    "C37_known_inliers"
   ],
   "note": "GNC is assumed to return one weight per factor it is given."
  },
  {
   "property": "C38",
   "status": "partial",
   "theorems": [
    "C38_optimize_partial",
    "C38_exact",
    "C38_false_many_closures",
    "C38_false_ignore"
   ],
   "note": "False in general: with more registered closures than factors in the graph, an optimization without GNC reads a weight tail longer than the weight vector. Proved when every optimization runs GNC, and otherwise when, of any two optimizing calls, the earlier one had seen no more closures than there are odometry factors and priors at either call. Without GNC the condition is exact: C38_exact says which calls are undefined."
  },
  {
   "property": "C47",
   "status": "proved",
   "theorems": [
    "C47_safe",
    "C47_reoptimize"
   ],
   "note": "Batch selection; measurements with Gaussian noise; GNC returns one weight per factor."
  },
  {
   "property": "C25",
   "status": "proved",
   "theorems": [
    "C25_returns_last",
    "C25_reverse_order",
    "C25_registered"
   ],
   "note": "Histories in which closures are removed only in this way (removals by robot pair do not keep the order, see C26)."
  },
  {
   "property": "C26",
   "status": "partial",
   "theorems": [
    "C26_chronological_partial",
    "C26_pair_partial",
    "C26_false_exhausted",
    "C26_false_interleaved",
    "C26_false_unchecked"
   ],
   "note": "False of the code: with the pairwise check disabled, removing a closure of a pair that has three or more reads outside an empty vector; once all closures of a pair are gone, removal by pair always throws, and removal in order after removal by pair throws although closures are left. Proved for each form used on its own."
  },
  {
   "property": "C28",
   "status": "partial",
   "theorems": [
    "C28_kept_partial",
    "C28_survives_partial",
    "C28_false_overwritten"
   ],
   "note": "False of the code: an observation of a known landmark from a pose that is new in the same batch counts as a first observation and discards all earlier ones. Proved for histories without that."
  },
  {
   "property": "C30",
   "status": "partial",
   "theorems": [
    "C30_keys",
    "C30_partial",
    "C30_relative_partial",
    "C30_laws_simple",
    "C30_laws_cov",
    "C30_false_orphan",
    "C30_false_late"
   ],
   "note": "Keys: proved in full. Contents: proved for fleets whose odometry is chained inside each robot; false for keys the odometry does not reach and for robots named by closures before their odometry (concrete runs)."
  },
  {
   "property": "C31",
   "status": "partial",
   "theorems": [
    "C31_partial",
    "C31_false_high_prefix"
   ],
   "note": "Proved for reference prefixes below 128 and closures between keys on the odometry chains; false for prefixes of 128 and more where char is signed."
  },
  {
   "property": "C43",
   "status": "proved",
   "theorems": [
    "C43_vertices",
    "C43_edges",
    "C43_edge_info",
    "C43_info",
    "C43_swap",
    "C43_refuses"
   ],
   "note": "Numbers are compared as printed (six significant digits)."
  },
  {
   "property": "C48",
   "status": "partial",
   "theorems": [
    "C48_partial",
    "C48_false_odometry",
    "C48_false_closure",
    "C48_returns_only_if"
   ],
   "note": "False of the code: every update with odometry whose noise is not Gaussian dereferences a null pointer. Proved for Gaussian noise. C48_returns_only_if: which measurements without Gaussian noise no update, from any state, returns from."
  },
  {
   "property": "C49",
   "status": "partial",
   "theorems": [
    "C49_partial",
    "C49_false"
   ],
   "note": "False of the code: the block coupling rotation and translation is not transposed. Proved if that block is symmetric."
  },
  {
   "property": "C46",
   "status": "proved",
   "theorems": [
    "C46_any_split",
    "C46_any_split_cov",
    "C46_closures",
    "C46_odometry",
    "C46_false_incremental"
   ],
   "note": "Updates that return normally. Any division and interleaving (C46_any_split): pose-to-pose closures, odometry a chain per robot that reaches the keys of a closure when it arrives. C46_closures covers landmark observations too, C46_odometry (without frame alignment) the whole solver state. In incremental mode the selection does depend on the division (C46_false_incremental)."
  },
  {
   "property": "C50",
   "status": "proved",
   "theorems": [
    "C50_odometry_check",
    "C50_registered"
   ],
   "note": "Node-count pose type (the Simple methods). Odometry of each robot a chain; calls that return normally."
  },
  {
   "property": "C51",
   "status": "proved",
   "theorems": [
    "C51_pairwise_check",
    "C51_matrix",
    "C51_opposite_direction"
   ],
   "note": "Node-count pose type (the Simple methods). Closures in the same direction; for opposite directions the theorem states what the code does instead (see C13)."
  },
  {
   "property": "C52",
   "status": "partial",
   "theorems": [
    "C52_matrix_partial",
    "C52_check_partial",
    "C52_two_robots",
    "C52_false_reversed",
    "C52_false_two_robots"
   ],
   "note": "False of the code for observations written from the landmark to the pose (undefined behaviour at the next observation) and for observations by two robots (the second robot's pose is ignored). Proved for observations by one robot written from the pose."
  },
  {
   "property": "C53",
   "status": "partial",
   "theorems": [
    "C53_odometry_check_partial",
    "C53_pairwise_check_partial",
    "C53_inverse_partial",
    "C53_false"
   ],
   "note": "False of the code: PoseWithCovariance::inverse copies the covariance instead of transporting it, so the covariance of the inverted part is not propagated (a closure more than twice over the threshold is registered). Proved: the exact covariance the code uses, for every chain, and when it is the propagated one. Closures in the same direction, with or without rotation information, odometry with rotation information."
  },
  {
   "property": "C54",
   "status": "partial",
   "theorems": [
    "C54_norms_3d",
    "C54_norms_2d",
    "C54_thresholds_partial",
    "C54_pairwise_partial",
    "C54_blocks",
    "C54_false_2d",
    "C54_false_2d_run"
   ],
   "note": "Proved in 3D. False in 2D: GTSAM orders the logarithm of Pose2 as (x, y, theta), the code reads the first component as rotation, so the x error is compared with the rotation threshold and (y, theta) with the translation threshold."
  },
  {
   "property": "C55",
   "status": "partial",
   "theorems": [
    "C55_updates_succeed_partial",
    "C55_false_align"
   ],
   "note": "Optimizing calls: proved without fixed previous inliers, with GNC or under the bound of C38, and with fixed previous inliers when every registered closure is kept (no pairwise check, no incremental selection, no landmarks); odometry may continue odometry of the same update; with frame alignment if odometry and landmark observations name only poses that have values by then and each landmark is observed by one robot. False with frame alignment otherwise: if an odometry factor starts at a key without value, the update throws after its factors were added to the graph."
  },
  {
   "property": "C56",
   "status": "partial",
   "theorems": [
    "C56_count_partial",
    "C56_le_closures",
    "C56_false_fraction"
   ],
   "note": "The bound by getNumLC holds for every history. The count is the sum of the closure weights rounded down, which is the number of accepted closures when the weights are 0 and 1; with other weights accepted closures are lost (two closures of weight 3/4 count as one)."
  },
  {
   "property": "C57",
   "status": "partial",
   "theorems": [
    "C57_reoptimize_partial",
    "C57_false_readmits",
    "C57_false_out_of_range",
    "C57_false_removal"
   ],
   "note": "Proved when every registered closure is in the graph at the previous optimization (C47 covers the configurations in which that always holds). False otherwise: the code takes as many trailing weights as closures were ever registered, so after the consistency checks rejected a closure, discarded closures are readmitted or the call throws out_of_range; removing an accepted closure throws too."
  },
  {
   "property": "C58",
   "status": "partial",
   "theorems": [
    "C58_guess_irrelevant_partial",
    "C58_guess_irrelevant_cov_partial",
    "C58_gauge_partial",
    "C58_gauge_cov_partial",
    "C58_false_stray_closure",
    "C58_false_two_observers"
   ],
   "note": "Proved for both pose types, with landmarks, closures, removals, ignored prefixes and optimization in between, when the odometry of each robot is a chain, reaches the keys of each closure and the pose of each landmark observation when it arrives, and each landmark is observed by one robot. False for a closure to a key that has a value but no odometry: its trajectory is then made of the supplied value, and moving all poses by 50 drops the closure. False too for a landmark observed by two robots: their relative position is taken from the absolute start of the first robot (C58_false_two_observers)."
  },
  {
   "property": "C59",
   "status": "proved",
   "theorems": [
    "C59_estimate",
    "C59_aligned",
    "C59_generic",
    "C59_overwrite"
   ],
   "note": "For every state and every call; C59_aligned covers updates with frame alignment (what alignment does to the estimate is C30/C31/C66), fixed previous inliers are C57. The optimizer is a parameter of the model."
  },
  {
   "property": "C60",
   "status": "partial",
   "theorems": [
    "C60_same_graph",
    "C60_batch_estimate",
    "C60_incremental_estimate_partial",
    "C60_both_run",
    "C60_false_stale",
    "C60_false_disabled"
   ],
   "note": "Same edges: proved. Saved vertices: proved for RpgoReadG2o; false for RpgoReadG2oIncremental, whose estimate comes from the first update without closures (C60_false_stale; what it is instead is proved). Completion: proved. Refused arguments: only exactly -1 is refused (C60_false_disabled)."
  },
  {
   "property": "C61",
   "status": "partial",
   "theorems": [
    "C61_transparent",
    "C61_status",
    "C61_rejection",
    "C61_result_partial",
    "C61_adjacency_partial",
    "C61_off",
    "C61_save",
    "C61_false_stale",
    "C61_false_rows"
   ],
   "note": "Transparency, rows of both logs, no files without logging, saveData: proved. result.g2o, weights and matrix files: proved to show the solver as it was after the last logged update (last update with factors for the matrices); that they show the current state is false after a removal (C61_false_stale). The two logs get out of step when the optimizer throws (C61_false_rows). The log folder is taken to be empty at the start."
  },
  {
   "property": "C62",
   "status": "partial",
   "theorems": [
    "C62_file_read_partial",
    "C62_values_partial",
    "C62_statistics_partial",
    "C62_finders_partial",
    "C62_matrix_read",
    "C62_extension",
    "C62_readGraph",
    "C62_refused_iff",
    "C62_false_gr",
    "C62_false_index",
    "C62_false_missing_value",
    "C62_false_twice",
    "C62_false_header"
   ],
   "note": "Everything is proved for well-formed files and a fresh object. The rest is false: .gr files are accepted without being read, indices out of range are accepted and lead to out-of-range accesses in the finders, a missing value is replaced by that of an earlier line or read uninitialised, an object used twice mixes both graphs, a long first line overflows a buffer, and a file ending in an unterminated comment is read forever."
  },
  {
   "property": "C63",
   "status": "partial",
   "theorems": [
    "C63_files_partial",
    "C63_throws_iff",
    "C63_false_landmark"
   ],
   "note": "Proved for vertices that are all 3D poses; with any other vertex the program ends with an exception (C63_throws_iff) and files are missing or incomplete (C63_false_landmark)."
  },
  {
   "property": "C64",
   "status": "partial",
   "theorems": [
    "C64_single",
    "C64_accepted",
    "C64_maximal",
    "C64_consistent_partial",
    "C64_all",
    "C64_false_contradiction",
    "C64_false_doubled",
    "C64_false_fewer"
   ],
   "note": "The claim is proved when agreement is transitive on the closures of the pair (C64_consistent_partial, C64_all), in both modes and after removals. In general it is false of the code: accepted closures may contradict each other while a closure agreeing with all of them is rejected, a closure may be accepted (and be in the graph) twice, and one more closure may lower the number of accepted ones. What holds in general is C64_accepted and C64_maximal: the first accepted closure agrees with the others, and their number is that of a maximal set of agreeing closures."
  },
  {
   "property": "C65",
   "status": "proved",
   "theorems": [
    "C65_only_the_pair_matters",
    "C65_only_the_pair_matters_cov",
    "C65_batch",
    "C65_batch_cov",
    "C65_without_the_others",
    "C65_without_the_others_cov",
    "C65_false_removal"
   ],
   "note": "Both selection modes; in batch mode also independent of the grouping (C65_batch). Whether a call returns normally can depend on other robots: after removing the only closure between a and c, an update with a closure between a and b throws (C65_false_removal), hence the condition in the statement."
  },
  {
   "property": "C66",
   "status": "partial",
   "theorems": [
    "C66_average_partial",
    "C66_l2_partial",
    "C66_exact",
    "C66_cost_2d",
    "C66_false_2d"
   ],
   "note": "Proved in 3D (each accepted closure, weights, threshold, start), and for exact data in both dimensions. False in 2D: the standard deviations are laid out rotation first, but GTSAM's Pose2 stores x, y, angle, so the error along x is weighed as a rotation and the rotation error as a translation (C66_false_2d; C66_cost_2d says what is computed). Fleets as in C30_partial."
  },
  {
   "property": "C67",
   "status": "partial",
   "theorems": [
    "C67_gnc_partial",
    "C67_plain",
    "C67_align",
    "C67_false_switches"
   ],
   "note": "Settings, damping, alignment: proved for all sequences of setter calls. False for the switches: a GNC setter called after gncFixInliers or gncBiasOdom turns them off again unless told otherwise (C67_false_switches)."
  },
  {
   "property": "C68",
   "status": "partial",
   "theorems": [
    "C68_restored_partial",
    "C68_undo_partial",
    "C68_graph_partial",
    "C68_false_incremental"
   ],
   "note": "Proved for batch selection with the pairwise check on. False with incremental selection: a removal selects again from scratch, so other closures may be accepted than before (C68_false_incremental)."
  },
  {
   "property": "C69",
   "status": "partial",
   "theorems": [
    "C69_single",
    "C69_accepted",
    "C69_consistent_partial",
    "C69_all",
    "C69_unaffected",
    "C69_false_contradiction",
    "C69_false_doubled",
    "C69_false_reversed"
   ],
   "note": "Pairwise agreement and maximality are proved when agreement is transitive; in general the search may accept contradicting observations (C69_false_contradiction) or one observation twice (C69_false_doubled). Observations written from the landmark to the pose are not accepted even if they agree (C69_false_reversed)."
  },
  {
   "property": "C70",
   "status": "partial",
   "theorems": [
    "C70_any_order_partial",
    "C70_guess_partial",
    "C70_guess_cov_partial",
    "C70_false_positions"
   ],
   "note": "Proved for histories in which each robot's first pose is supplied with its first odometry factor (otherwise the claim fails as for C35, see C35_false_late_start) and no factor is removed by position, for which it is false (C70_false_positions)."
  },
  {
   "property": "C71",
   "status": "partial",
   "theorems": [
    "C71_failed_optimization",
    "C71_refused",
    "C71_refused_plain",
    "C71_caught_partial",
    "C71_stand_in",
    "C71_false_out_of_range"
   ],
   "note": "Proved for optimizers and averaging that fail, queries that fail, and updates refused because of a key, in any number, under the conditions of C70. False of the exception of C27, which is thrown after odometry was stored (C71_false_out_of_range)."
  },
  {
   "property": "C72",
   "status": "partial",
   "theorems": [
    "C72_only_the_observer_matters_partial",
    "C72_only_the_observer_matters_cov_partial",
    "C72_without_the_others_partial",
    "C72_without_the_others_cov_partial",
    "C58_false_two_observers"
   ],
   "note": "Proved for a landmark observed by one robot, from poses its odometry has reached. False for a landmark observed by several robots, where the initial guesses of the robots decide (C58_false_two_observers)."
  },
  {
   "property": "C73",
   "status": "partial",
   "theorems": [
    "C73_any_arrival_partial",
    "C73_any_arrival_cov_partial",
    "C73_inliers_partial",
    "C73_swap_partial",
    "C73_swap_cov_partial",
    "C73_false_inliers",
    "C73_false_same_pair"
   ],
   "note": "Proved for histories without removals in which odometry arrives before the closures about it and each landmark has one observer. The reported number of inliers agrees when both histories end with a call that carries a candidate (C73_inliers_partial); in general it does not (C73_false_inliers). Messages about the same pair cannot be swapped (C73_false_same_pair)."
  },
  {
   "property": "C74",
   "status": "proved",
   "theorems": [
    "C74_group_accepted",
    "C74_observations",
    "C74_true_closures",
    "C74_true_closures_cov",
    "C74_false_one_agreement"
   ],
   "note": "The condition that no closure outside of the group agrees with one inside cannot be weakened to 'with at most one': C74_false_one_agreement."
  },
  {
   "property": "C75",
   "status": "proved",
   "theorems": [
    "C75_either_first",
    "C75_any_order",
    "C75_false_directions",
    "C75_false_turning",
    "C75_false_tie"
   ],
   "note": "The three witnesses show that each condition is needed: C75_false_directions (opposite directions), C75_false_turning (distances that conjugation changes), C75_false_tie (no leading group)."
  },
  {
   "property": "C76",
   "status": "proved",
   "theorems": [
    "C76_copies_agree",
    "C76_copies_agree_cov",
    "C76_again",
    "C76_each_copy_counts",
    "C76_false_outvoted"
   ],
   "note": "C76_false_outvoted is a run in which a rejected closure, received two more times, displaces two accepted ones."
  },
  {
   "property": "C77",
   "status": "proved",
   "theorems": [
    "C77_ahead",
    "C77_ahead_plain",
    "C77_ahead_plain_many",
    "C77_false_odometry",
    "C77_false_landmark",
    "C77_false_observer",
    "C77_false_trigger"
   ],
   "note": "The four witnesses show that the exceptions in the statement are needed."
  },
  {
   "property": "C78",
   "status": "proved",
   "theorems": [
    "C78_no_overflow",
    "C78_same_outcome",
    "C78_counts"
   ],
   "note": "Stated as for C11: replacing the two operations by any others that agree with them where no overflow occurs changes nothing."
  },
  {
   "property": "C79",
   "status": "proved",
   "theorems": [
    "C79_postponed",
    "C79_asked",
    "C79_priors",
    "C79_again"
   ],
   "note": "C57_false_out_of_range and C57_false_readmits show that the last claim is false when previous inliers are fixed."
  },
  {
   "property": "C80",
   "status": "proved",
   "theorems": [
    "C80_renaming",
    "C80_returns"
   ],
   "note": "C80_false_alignment, C80_false_last and C80_false_signed show that the conditions are needed: with alignment the smallest prefix gives the frame; the key after the last pose number of one robot is the first of the next; removing priors compares an unsigned with a plain char."
  },
  {
   "property": "C81",
   "status": "proved",
   "theorems": [
    "C81_restart",
    "C81_restart_cov",
    "C81_estimate",
    "C81_agreeing"
   ],
   "note": "C81_agreeing: the agreement asked for follows, for closures of one direction and symmetric distances, if the accepted closures are mutually consistent. C81_false_neighbours, C81_false_agreement and C81_false_landmark show that these conditions are needed."
  },
  {
   "property": "C82",
   "status": "proved",
   "theorems": [
    "C82_units",
    "C82_units_cov",
    "C82_matrices",
    "C82_rigid",
    "C82_average"
   ],
   "note": "C82_rigid and C82_matrices show that rigid motions and covariance matrices meet the hypotheses. C82_false_2d: with PCM_Simple2D the claim is false, because the rotation threshold is compared with x (C54). C82_false_alignment with C82_average: the averaging of the code does not meet the condition, because its standard deviations are fixed numbers."
  },
  {
   "property": "C83",
   "status": "proved",
   "theorems": [
    "C83_noise"
   ],
   "note": "C83_false_nan: the condition on rotation information is needed. C83_false_cov: with PCM2D the covariances matter. The other conditions are those of C58 and C70, with the witnesses given there."
  },
  {
   "property": "C84",
   "status": "proved",
   "theorems": [
    "C84_fleet",
    "C84_fleet_cov",
    "C84_two_fleets",
    "C84_two_fleets_cov"
   ],
   "note": "For histories whose calls return. C84_false_shared_landmark shows that a landmark must not be shared with a robot outside the fleet."
  },
  {
   "property": "C85",
   "status": "proved",
   "theorems": [
    "C85_outcome",
    "C85_returns_iff",
    "C85_plain",
    "C85_optimizing",
    "C85_edits",
    "C85_plain_optimizing",
    "C85_generic",
    "C85_false_ungrounded",
    "C85_false_unsited"
   ],
   "note": "C85_outcome, C85_returns_iff and C85_optimizing include frame alignment under the conditions Spec.Sited; C85_false_unsited and C55_false_align show that these are needed. C85_optimizing and C85_edits are for calls that optimize. C85_false_ungrounded shows that closures must not name robots without odometry: such a robot's later odometry is attached at a default pose instead of being refused. What happens after removals that leave fewer than two closures is C27."
  },
  {
   "property": "C86",
   "status": "proved",
   "theorems": [
    "C86_registered",
    "C86_registered_cov",
    "C86_accepted",
    "C86_accepted_cov",
    "C86_graph",
    "C86_graph_cov"
   ],
   "note": "C86_false_tie: with two groups of the same size the two modes accept different ones. C86_false_fewer, C86_false_more: if agreement is not transitive incremental selection may accept fewer closures than batch selection, or more."
  },
  {
   "property": "C87",
   "status": "proved",
   "theorems": [
    "C87_judgement",
    "C87_graph",
    "C87_at_the_end"
   ],
   "note": "C87_false_count: the number of inliers reported counts closures of ignored prefixes, which the graph does not hold."
  },
  {
   "property": "C88",
   "status": "proved",
   "theorems": [
    "C88_registered",
    "C88_registered_cov",
    "C88_accepted",
    "C88_accepted_cov"
   ],
   "note": "C88_false_fewer: if agreement is not transitive, raising the thresholds may lower the number of accepted closures. C88_false_displaced: even if it is, an accepted closure may be displaced by others that now agree."
  },
  {
   "property": "C89",
   "status": "proved",
   "theorems": [
    "C89_forgotten",
    "C89_forgotten_cov"
   ],
   "note": "C89_false_landmarks: the landmark observations of an ignored robot stay in the graph. C89_false_count: its closures are still counted. C89_false_removal: with removals the claim is false."
  },
  {
   "property": "C90",
   "status": "proved",
   "theorems": [
    "C90_no_trace",
    "C90_history"
   ],
   "note": "C90_false_between: an optimization between the edit and the call that builds the graph anew leaves its trace in the estimate. C90_false_plain: without outlier rejection edits last."
  },
  {
   "property": "C91",
   "status": "proved",
   "theorems": [
    "C91_numbers",
    "C91_returns",
    "C91_start"
   ],
   "note": "C91_false_apart: keys that no longer follow each other turn odometry into a loop closure. C91_false_zero: with frame alignment and a landmark seen by two robots that do not start at 0, an update that returned raises an exception. C91_false_exception: with frame alignment the exception raised can depend on the numbers."
  },
  {
   "property": "C92",
   "status": "proved",
   "theorems": [
    "C92_redrawn",
    "C92_estimate",
    "C92_forced"
   ],
   "note": "C92_false_untied: a robot without closures to the reference robot keeps what was written over its estimate. C92_false_no_factors: an update without factors redraws nothing."
  },
  {
   "property": "C93",
   "status": "proved",
   "theorems": [
    "C93_batch_runs",
    "C93_batch_dies",
    "C93_batch_warns",
    "C93_incremental_runs",
    "C93_incremental_dies",
    "C93_incremental_warns",
    "C93_false_disabled",
    "C93_trajectories"
   ],
   "note": "C93_false_disabled: with incremental selection only -1 is refused as a threshold; any other negative threshold switches both checks off. Numbers are elements of an ordered field: NaN, which passes every comparison of the programs, is not covered."
  },
  {
   "property": "C94",
   "status": "partial",
   "theorems": [
    "C94_odometry_check_partial",
    "C94_pairwise_check_partial",
    "C94_translation_only_partial",
    "C94_false"
   ],
   "note": "False of the code: between computes the covariance of a path as a difference and, if that is not positive definite, computes it the other way round. For odometry without rotation information the difference is singular, so from an earlier to a later pose the code uses minus the covariance of the path: good closures are rejected, while the same closures in the other direction are accepted (C94_false). Proved: which norm is used and the exact covariance the code uses, for every chain with positive semidefinite covariances (C53 is the special case with rotation information)."
  },
  {
   "property": "C95",
   "status": "proved",
   "theorems": [
    "C95_fits",
    "C95_bound_exact",
    "C95_closures",
    "C95_observations"
   ],
   "note": "Closures: with the pairwise check on. Observations: written from the pose to the landmark (otherwise the matrix itself goes wrong, C52)."
  },
  {
   "property": "C96",
   "status": "proved",
   "theorems": [
    "C96_exactly",
    "C96_parameters",
    "C96_measurements",
    "C96_fleet",
    "C96_plain"
   ],
   "note": "The converse of C55. C85_false_ungrounded and C55_false_align show why closures must name robots with odometry, and why alignment needs more values."
  },
  {
   "property": "C97",
   "status": "proved",
   "theorems": [
    "C97_axes",
    "C97_axes_cov",
    "C97_rotation",
    "C97_matrices",
    "C97_average",
    "C97_false_2d",
    "C97_false_origin"
   ],
   "note": "C97_rotation, C97_matrices and C97_average show that rotations, covariance matrices and the averaging of the code meet the hypotheses. C97_false_2d: with PCM_Simple2D the claim is false, because the rotation threshold is compared with x (C54). C97_false_origin: moving the origins of the frames makes an accepted closure rejected."
  },
  {
   "property": "C98",
   "status": "proved",
   "theorems": [
    "C98_own_axes",
    "C98_false_directions"
   ],
   "note": "The conditions are in the statement. C98_false_directions: with closures in opposite directions between two robots a quarter turn of the axes of one of them changes which closures are kept, because the combination the code compares is then not a closed path (C51)."
  },
  {
   "property": "C99",
   "status": "proved",
   "theorems": [
    "C99_judged_alike",
    "C99_small_changes"
   ],
   "note": "The conditions are in the statement. The two data sets are given as one history over pairs, firstOf and secondOf are its halves. Closures in both directions are covered, with the error the code really compares (C51_opposite_direction)."
  },
  {
   "property": "C100",
   "status": "proved",
   "theorems": [
    "C100_registered",
    "C100_all_accepted",
    "C100_nothing_lost",
    "C100_outliers",
    "C100_observations",
    "C100_lengths",
    "C100_false_lever"
   ],
   "note": "The conditions are in the statement: Kind and Sizes say what a size that is the same from everywhere is (met by pure translations in any number of dimensions: C100_lengths; shift_kind, ceilLen_sizes and ang_sizes are an instance for planar poses in which runs are evaluated), Near bounds the error of a measurement. C100_false_lever shows that the condition on the sizes is needed; that closures must lead in one direction is C13."
  },
  {
   "property": "C101",
   "status": "proved",
   "theorems": [
    "C101_majority",
    "C101_observations",
    "C101_unregistered",
    "C101_false_diluted"
   ],
   "note": "The conditions are in the statement: Near and Gross bound the errors of a measurement, supplied closures are pairGroups, registered observations observed. C101_false_diluted shows that the factor M cannot be dropped. Closures in one direction (C13)."
  },
  {
   "property": "C102",
   "status": "proved",
   "theorems": [
    "C102_same",
    "C102_quiet",
    "C102_warnings",
    "C102_accounted",
    "C102_named",
    "C102_landmarks",
    "C102_totals",
    "C102_discarding",
    "C102_apart",
    "C102_others",
    "C102_unrejected",
    "C102_asked",
    "C102_unaligned",
    "C102_false_silent",
    "C102_false_gnc",
    "C102_false_unaligned"
   ],
   "note": "The exceptions are in the statement, each with its witness (C102_false_silent, C102_false_gnc, C102_false_unaligned, C102_discarding and the example after it). Durations, the distances of the consistency checks and what GTSAM prints are not part of the messages; which warnings are left out is said in Model/Print."
  },
  {
   "property": "C103",
   "status": "proved",
   "theorems": [
    "C103_elsewhere",
    "C103_stretch",
    "C103_false_between"
   ],
   "note": "C103_false_between shows that the condition is needed. That the two data sets agree on which measurements carry rotation information is part of the setting (see C94)."
  },
  {
   "property": "C104",
   "status": "proved",
   "theorems": [
    "C104_throw",
    "C104_kept",
    "C104_false_aligned",
    "C104_false_half"
   ],
   "note": "C104_false_aligned shows that the second case occurs, C104_false_half that updateValues, and an optimizer that changes types, must be excluded. That the keys and types of the estimate survive in any case is C34."
  },
  {
   "property": "C105",
   "status": "proved",
   "theorems": [
    "C105_judgement",
    "C105_graph"
   ],
   "note": "The conditions are those of C87, which says the same about ignoring and reviving prefixes."
  },
  {
   "property": "C106",
   "status": "proved",
   "theorems": [
    "C106_level",
    "C106_matrices",
    "C106_false_same_thresholds"
   ],
   "note": "C106_matrices shows that real covariance matrices with the Mahalanobis norms of the code meet the hypothesis. With the simple methods covariances do not matter at all (C83)."
  },
  {
   "property": "C107",
   "status": "proved",
   "theorems": [
    "C107_call",
    "C107_session",
    "C107_mixed",
    "C107_silent",
    "C107_rest",
    "C107_false_quiet",
    "C107_false_same"
   ],
   "note": "The exceptions are in the statement, each with its witness (C107_false_quiet, C107_false_same)."
  },
  {
   "property": "C108",
   "status": "proved",
   "theorems": [
    "C108_flag",
    "C108_last",
    "C108_same",
    "C108_quiet_same",
    "C108_messages",
    "C108_transcript",
    "C108_construction",
    "C108_false_update"
   ],
   "note": "The exception is in the statement, with its witness (C108_false_update). Why the condition on the method is needed: C107_false_same."
  }
 ]
}