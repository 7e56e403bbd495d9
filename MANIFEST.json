{
 "claims": [
  {
   "property": "C01",
   "status": "proved",
   "theorems": [
    "Knor.Partition.C01_thread_blocks_partition",
    "Knor.Partition.C01_limit_2pow32_rows_lost"
   ],
   "note": "For nrow < 2^32; C01_limit_2pow32_rows_lost shows the 32-bit truncation at the excluded point."
  },
  {
   "property": "C02",
   "status": "proved",
   "theorems": [
    "Knor.Partition.C02_row_lookup",
    "Knor.Partition.C02_search_precondition"
   ],
   "note": ""
  },
  {
   "property": "C03",
   "status": "proved",
   "theorems": [
    "Knor.Partition.C03_task_queue_exactly_once",
    "Knor.Partition.C03_limit_wraparound_out_of_block"
   ],
   "note": "For blocks below 2^32-8192 rows; C03_limit_wraparound_out_of_block shows what happens above."
  },
  {
   "property": "C04",
   "status": "proved",
   "theorems": [
    "Knor.Partition.C04_unique_owner",
    "Knor.Partition.C04_conversions_inverse",
    "Knor.Partition.C04_process_blocks_cover",
    "Knor.Partition.C04_gather_slices"
   ],
   "note": ""
  },
  {
   "property": "C05",
   "status": "partial",
   "theorems": [
    "Knor.Partition.C05_violation",
    "Knor.Partition.C05_rejects_unowned_partial"
   ],
   "note": "False of the code: C05_violation gives the witness (a row of a later process passes both checks); the rejecting direction that does hold is C05_rejects_unowned_partial."
  },
  {
   "property": "C06",
   "status": "proved",
   "theorems": [
    "Knor.Kmeans.C06_nearest_centroid"
   ],
   "note": ""
  },
  {
   "property": "C07",
   "status": "proved",
   "theorems": [
    "Knor.Kmeans.C07_changed_exact"
   ],
   "note": ""
  },
  {
   "property": "C08",
   "status": "proved",
   "theorems": [
    "Knor.Kmeans.C08_sizes_histogram"
   ],
   "note": ""
  },
  {
   "property": "C09",
   "status": "proved",
   "theorems": [
    "Knor.Kmeans.C09_centroid_is_mean"
   ],
   "note": "Exact arithmetic (any field)."
  },
  {
   "property": "C10",
   "status": "proved",
   "theorems": [
    "Knor.Kmeans.C10_threads_and_schedule_irrelevant",
    "Knor.Kmeans.C10_C11_run_is_lloyd",
    "Knor.Kmeans.C10_trace_exists_unique"
   ],
   "note": "Exact arithmetic for the sums; distances in any linear order."
  },
  {
   "property": "C11",
   "status": "proved",
   "theorems": [
    "Knor.Kmeans.C10_C11_run_is_lloyd",
    "Knor.Kmeans.C11_budget"
   ],
   "note": ""
  },
  {
   "property": "C12",
   "status": "proved",
   "theorems": [
    "Knor.Kmeans.C12_converged_is_fixed_point"
   ],
   "note": ""
  },
  {
   "property": "C13",
   "status": "proved",
   "theorems": [
    "Knor.Dist.C36_C13_C14_like_squares",
    "Knor.Kmeans.C13_wcss_monotone"
   ],
   "note": "Every metric that orders rows like the squared Euclidean distance; see C36 for Euclid."
  },
  {
   "property": "C14",
   "status": "proved",
   "theorems": [
    "Knor.Dist.C36_C13_C14_like_squares",
    "Knor.Kmeans.C14_terminates"
   ],
   "note": "Bound k^N+1 iterations."
  },
  {
   "property": "C15",
   "status": "proved",
   "theorems": [
    "Knor.Clusters.C15_finalize_idempotent",
    "Knor.Clusters.C15_finalize_roundtrip"
   ],
   "note": ""
  },
  {
   "property": "C16",
   "status": "proved",
   "theorems": [
    "Knor.Clusters.C16_merge_order_independent"
   ],
   "note": ""
  },
  {
   "property": "C17",
   "status": "proved",
   "theorems": [
    "Knor.Clusters.C17_incremental_equals_batch"
   ],
   "note": ""
  },
  {
   "property": "C18",
   "status": "proved",
   "theorems": [
    "Knor.DistMatrix.C18_table_is_unordered_pair_map",
    "Knor.DistMatrix.C18_limit_one_cluster_aborts"
   ],
   "note": "For k >= 2, the range the property names; k = 1 aborts (C18_limit_one_cluster_aborts)."
  },
  {
   "property": "C19",
   "status": "proved",
   "theorems": [
    "Knor.DistMatrix.C19_half_distances_and_separation"
   ],
   "note": ""
  },
  {
   "property": "C20",
   "status": "proved",
   "theorems": [
    "Knor.Prune.C20_pruned_estep_exact",
    "Knor.Prune.C20_bounds_stay_valid"
   ],
   "note": "Ordered-field arithmetic; Euclid over the reals instantiates the hypotheses (C36)."
  },
  {
   "property": "C21",
   "status": "proved",
   "theorems": [
    "Knor.Distr.C21_distributed_pruned_is_exact"
   ],
   "note": "For at least as many rows as processes, blocks below 2^32-8192 rows; ties may be broken either way."
  },
  {
   "property": "C22",
   "status": "partial",
   "theorems": [
    "Knor.Prune.C22_violation",
    "Knor.Prune.C22_exact_at_convergence_partial"
   ],
   "note": "False of the code: C22_violation is a concrete run that reports convergence with a row at a non-nearest centroid (prev_means is zero in the first update_clusters). The partial theorem proves exactness when the recorded first movement covers the true one."
  },
  {
   "property": "C23",
   "status": "partial",
   "theorems": [
    "Knor.Prune.C23_violation_sqeucl",
    "Knor.Prune.C23_sound_for_dominating_metrics_partial"
   ],
   "note": "False of the code for sqeucl: C23_violation_sqeucl. The partial theorem covers metrics that dominate the Euclidean distance, given valid bounds."
  },
  {
   "property": "C24",
   "status": "proved",
   "theorems": [
    "Knor.Prune.C24_incremental_equals_recomputed",
    "Knor.Prune.C24_one_iteration"
   ],
   "note": ""
  },
  {
   "property": "C25",
   "status": "proved",
   "theorems": [
    "Knor.Prune.C25_iteration_schedule_irrelevant",
    "Knor.Prune.C25_run_schedule_irrelevant"
   ],
   "note": ""
  },
  {
   "property": "C26",
   "status": "proved",
   "theorems": [
    "Knor.Distr.C26_distributed_is_lloyd",
    "Knor.Distr.C26_no_iterations",
    "Knor.Distr.C26_limit_fewer_rows_than_ranks"
   ],
   "note": "For at least as many rows as processes; C26_limit_fewer_rows_than_ranks shows the division by zero otherwise."
  },
  {
   "property": "C27",
   "status": "proved",
   "theorems": [
    "Knor.Init.C27_forgy_picks_rows",
    "Knor.Init.C27_distributed_forgy"
   ],
   "note": ""
  },
  {
   "property": "C28",
   "status": "proved",
   "theorems": [
    "Knor.Init.C28_random_partition",
    "Knor.Init.C28_C31_distributed_random_partition"
   ],
   "note": "Exact arithmetic."
  },
  {
   "property": "C29",
   "status": "proved",
   "theorems": [
    "Knor.Init.C29_kmeanspp",
    "Knor.Init.C29_weighted_choice",
    "Knor.Init.C29_both_engines",
    "Knor.Init.C29_pass_keeps_minimum"
   ],
   "note": "Exact arithmetic; every division of rows among workers."
  },
  {
   "property": "C30",
   "status": "partial",
   "theorems": [
    "Knor.Init.C30_selectable_rows_partial",
    "Knor.Init.C30_violation",
    "Knor.Init.C30_violation_run",
    "Knor.Init.C30_no_duplicate_centre_partial"
   ],
   "note": "False of the code (C30_violation, C30_violation_run: the draw is divided by RAND_MAX-1, so essentially only the first rows can be chosen). The partial theorems characterise exactly which rows are selectable and show that no duplicate of a chosen centre is selected."
  },
  {
   "property": "C31",
   "status": "proved",
   "theorems": [
    "Knor.Init.C28_C31_distributed_random_partition",
    "Knor.Init.C31_rank_streams_concatenate",
    "Knor.Init.C31_interleaved_streams",
    "Knor.Init.C31_interleaved_streams_cover"
   ],
   "note": ""
  },
  {
   "property": "C32",
   "status": "proved",
   "theorems": [
    "Knor.MiniBatch.C32_iteration_convex",
    "Knor.MiniBatch.C32_coordinates",
    "Knor.MiniBatch.C32_run_convex"
   ],
   "note": "Exact arithmetic."
  },
  {
   "property": "C33",
   "status": "proved",
   "theorems": [
    "Knor.MiniBatch.C33_final_assignment"
   ],
   "note": "Exact arithmetic."
  },
  {
   "property": "C34",
   "status": "proved",
   "theorems": [
    "Knor.Barrier.C34_phase_complete_on_return",
    "Knor.Barrier.C34_lockstep",
    "Knor.Barrier.C34_no_exception_no_wrap",
    "Knor.Barrier.C34_all_joined"
   ],
   "note": "Sequential consistency; the unlocked reads of the thread state in the callback are a formal data race that is not modelled further."
  },
  {
   "property": "C35",
   "status": "partial",
   "theorems": [
    "Knor.Barrier.C35_violated",
    "Knor.Barrier.C35_only_lost_wakeup_hangs_partial",
    "Knor.Barrier.C35_no_other_deadlock_partial"
   ],
   "note": "False of the code: C35_violated (lost wake-up: the worker signals without holding the coordinator mutex). The partial theorems show that this is the only way to hang, with a bound on the steps of every phase."
  },
  {
   "property": "C36",
   "status": "proved",
   "theorems": [
    "Knor.Dist.C36_euclid_is_metric",
    "Knor.Dist.C36_taxicab_is_metric",
    "Knor.Dist.C36_squared_euclid",
    "Knor.Dist.C36_euclid_le_taxicab",
    "Knor.Dist.C36_cosine",
    "Knor.Dist.C36_dispatch",
    "Knor.Dist.C36_C13_C14_like_squares"
   ],
   "note": "Over the reals; exact arithmetic."
  },
  {
   "property": "C37",
   "status": "partial",
   "theorems": [
    "Knor.Omp.C37_budget_partial",
    "Knor.Omp.C37_budget_one_does_nothing",
    "Knor.Omp.C37_violation"
   ],
   "note": "False: C37_violation, C37_budget_one_does_nothing. C37_budget_partial: a budget of M+1 performs at most M iterations."
  },
  {
   "property": "C38",
   "status": "partial",
   "theorems": [
    "Knor.Skmeans.C38_unit_interval_partial",
    "Knor.Skmeans.C38_minmax_partial",
    "Knor.Skmeans.C38_violated_negative",
    "Knor.Skmeans.C38_violated_constant",
    "Knor.Skmeans.C38_run_on_scaled_rows_partial"
   ],
   "note": "False for columns of negative entries (maximum starts at the smallest positive double) and for constant columns (0/0): C38_violated_negative, C38_violated_constant. Proved for columns whose maximum is large enough and not equal to the minimum."
  },
  {
   "property": "C39",
   "status": "proved",
   "theorems": [
    "Knor.Medoid.C39_medoids_are_rows",
    "Knor.Medoid.C39_energy_never_increases",
    "Knor.Medoid.C39_schedule_irrelevant"
   ],
   "note": "Exact arithmetic over an ordered additive monoid, symmetric distance with zero self-distance."
  },
  {
   "property": "C40",
   "status": "proved",
   "theorems": [
    "Knor.Fcm.C40_iteration",
    "Knor.Fcm.C40_start",
    "Knor.Fcm.C40_memberships_and_centres"
   ],
   "note": "Exact arithmetic; root is any function positive on positives (std::pow is an instance, shown for the reals)."
  },
  {
   "property": "C41",
   "status": "partial",
   "theorems": [
    "Knor.Fcm.C41_violated",
    "Knor.Fcm.C41_far_centres_partial"
   ],
   "note": "False: C41_violated. C41_far_centres_partial: holds only if every other centre is astronomically far."
  },
  {
   "property": "C42",
   "status": "proved",
   "theorems": [
    "Knor.IdGen.C42_ids_unique",
    "Knor.IdGen.C42_ids_compact",
    "Knor.IdGen.C42_limit_wraps"
   ],
   "note": "For fewer than 2^31-1 splits; C42_limit_wraps shows the bound is sharp."
  },
  {
   "property": "C43",
   "status": "proved",
   "theorems": [
    "Knor.Compact.C43_compaction_bijective"
   ],
   "note": "Given counts that are the histogram of the assignment (C45)."
  },
  {
   "property": "C44",
   "status": "partial",
   "theorems": [
    "Knor.Compact.C44_violated",
    "Knor.Compact.C44_centroids_match_partial"
   ],
   "note": "False of the code: C44_violated (a centroid whose cluster has no rows overwrites compacted cluster 0). The partial theorem covers centroid maps whose keys are exactly the clusters with rows."
  },
  {
   "property": "C45",
   "status": "partial",
   "theorems": [
    "Knor.Hclust.C45_rows_conserved_partial",
    "Knor.Hclust.C45_violated"
   ],
   "note": "Total correctness for min_clust_size >= 2 (the default) and max_iters >= 1; false for max_iters = 0 (C45_violated), memory fault for min_clust_size < 2 (C56_violated)."
  },
  {
   "property": "C46",
   "status": "proved",
   "theorems": [
    "Knor.Xmeans.C46_xmeans_restores_parent",
    "Knor.Xmeans.C46_gmeans_restores_parent",
    "Knor.Xmeans.C46_xmeans_runs",
    "Knor.Xmeans.C46_gmeans_runs_partial"
   ],
   "note": "Any consistent state and any set of rejected partitions, both algorithms; and in runs: every round of x-means, the first 3K-6 rounds of g-means."
  },
  {
   "property": "C47",
   "status": "partial",
   "theorems": [
    "Knor.VMap.C47_violated_phantom_keys",
    "Knor.VMap.C47_violated_hasKey_empty",
    "Knor.VMap.C47_violated_erase",
    "Knor.VMap.C47_finite_map_partial",
    "Knor.VMap.C47_const_read_partial"
   ],
   "note": "False in general: C47_violated_phantom_keys, C47_violated_hasKey_empty, C47_violated_erase. The partial theorem covers every history of maps with value-initialised reserved value and positive capacity."
  },
  {
   "property": "C48",
   "status": "partial",
   "theorems": [
    "Knor.VMap.C48_violated",
    "Knor.VMap.C48_check_set_partial",
    "Knor.VMap.C48_create_partial"
   ],
   "note": "False of the code: C48_violated (off by one at idx = size). The partial theorem covers every other index."
  },
  {
   "property": "C49",
   "status": "proved",
   "theorems": [
    "Knor.Linalg.C49_determinant"
   ],
   "note": "Any commutative ring, exact arithmetic."
  },
  {
   "property": "C50",
   "status": "partial",
   "theorems": [
    "Knor.Linalg.C50_singular_iff_partial",
    "Knor.Linalg.C50_entries_partial",
    "Knor.Linalg.C50_inverse_iff_partial",
    "Knor.Linalg.C50_inverse_one_partial",
    "Knor.Linalg.C50_violated"
   ],
   "note": "False of the code for every size >= 2 unless the odd-parity entries of the inverse vanish (adjoint never flips the sign): C50_violated; C50_inverse_iff_partial is the exact characterisation."
  },
  {
   "property": "C51",
   "status": "proved",
   "theorems": [
    "Knor.Io.C51_write_then_read",
    "Knor.Io.C51_rows_in_order",
    "Knor.Io.C51_worker_loads_its_block",
    "Knor.Io.C51_lookup_after_load",
    "Knor.Io.C51_lookup_in_array",
    "Knor.Io.C51_lookup_after_reorg",
    "Knor.Io.C51_short_file",
    "Knor.Io.C51_limit_empty_matrix",
    "Knor.Io.C51_store_cluster"
   ],
   "note": "Byte-level model, any element type and size, any thread and process block; round trip needs at least one element (C51_limit_empty_matrix)."
  },
  {
   "property": "C52",
   "status": "partial",
   "theorems": [
    "Knor.MultiStart.C52_best_start_partial",
    "Knor.MultiStart.C52_violated"
   ],
   "note": "C52_violated: reinit clears the assignment vector and the next start indexes it out of bounds. The partial theorem covers libraries whose clear keeps the storage and does not check indices."
  },
  {
   "property": "C53",
   "status": "proved",
   "theorems": [
    "Knor.Init.C53_distributed_kmeanspp"
   ],
   "note": "For at least as many rows as processes."
  },
  {
   "property": "C54",
   "status": "partial",
   "theorems": [
    "Knor.Barrier.C54_violated_parent_cond",
    "Knor.Barrier.C54_violated_thread_mutex",
    "Knor.Barrier.C54_before_destructor_partial"
   ],
   "note": "False of the code: C54_violated_parent_cond, C54_violated_thread_mutex. The partial theorem covers the time before the destructor."
  },
  {
   "property": "C55",
   "status": "partial",
   "theorems": [
    "Knor.Linalg.C55_scale_partial",
    "Knor.Linalg.C55_violated",
    "Knor.Linalg.C55_limit_constant_aborts"
   ],
   "note": "False of the code: std::accumulate is started with an int 0, so the running sum is truncated: C55_violated. C55_scale_partial covers integer-valued partial sums."
  },
  {
   "property": "C56",
   "status": "partial",
   "theorems": [
    "Knor.Hclust.C56_terminates_safely_partial",
    "Knor.Hclust.C56_violated"
   ],
   "note": "False for min_clust_size = 1 (C56_violated: null dereference); proved for min_clust_size >= 2, max_iters >= 1, kmax >= 2."
  },
  {
   "property": "C57",
   "status": "partial",
   "theorems": [
    "Knor.Hclust.C57_violated",
    "Knor.Hclust.C57_cluster_bound_partial"
   ],
   "note": "False (C57_violated: kmax = 2 reports 4 clusters); C57_cluster_bound_partial proves kmax + kmax/2 + 1."
  },
  {
   "property": "C58",
   "status": "partial",
   "theorems": [
    "Knor.Hclust.C58_centroids_are_means_partial",
    "Knor.Hclust.C58_violated"
   ],
   "note": "False when a recorded cluster is empty (C58_violated); proved otherwise."
  },
  {
   "property": "C59",
   "status": "proved",
   "theorems": [
    "Knor.Hclust.C59_rows_go_to_nearer_side",
    "Knor.Hclust.C59_convergence_test"
   ],
   "note": "All states reachable with min_clust_size >= 2 and kmax >= 2."
  },
  {
   "property": "C60",
   "status": "partial",
   "theorems": [
    "Knor.Medoid.C60_euclidean_partial",
    "Knor.Medoid.C60_violated"
   ],
   "note": "False: C60_violated. C60_euclidean_partial is the only honoured request."
  },
  {
   "property": "C61",
   "status": "proved",
   "theorems": [
    "Knor.Medoid.C61_terminates"
   ],
   "note": "Sampling rate and draws arbitrary; big bounds every candidate energy (Tame)."
  },
  {
   "property": "C62",
   "status": "partial",
   "theorems": [
    "Knor.Omp.C62_same_as_pthread",
    "Knor.Omp.C62_bad_k_rejected",
    "Knor.Omp.C62_pruned_same_as_pthread_partial",
    "Knor.Omp.C62_violation_pruned_kmeanspp"
   ],
   "note": "Unpruned: proved for all initialisations. Pruned: proved except k-means++, where it is false (C62_violation_pruned_kmeanspp)."
  },
  {
   "property": "C63",
   "status": "proved",
   "theorems": [
    "Knor.Fcm.C63_hard_assignment",
    "Knor.Fcm.C63_thread_independent"
   ],
   "note": "Rows at positive distance from all centres; DBL_MIN below (1/k)^fuzzindex."
  },
  {
   "property": "C64",
   "status": "partial",
   "theorems": [
    "Knor.Fcm.C64_iteration_partial",
    "Knor.Fcm.C64_objective_descends_partial",
    "Knor.Fcm.C64_violation"
   ],
   "note": "Holds while no row lies on a centre; C64_violation shows it false otherwise (every Forgy start)."
  },
  {
   "property": "C65",
   "status": "proved",
   "theorems": [
    "Knor.Fcm.C65_stops_when_told"
   ],
   "note": "The movement is an arbitrary norm of the centre difference."
  },
  {
   "property": "C66",
   "status": "proved",
   "theorems": [
    "Knor.MiniBatch.C66_stops_when_told",
    "Knor.MiniBatch.C66_sampled_rows"
   ],
   "note": "C66_stops_when_told, C66_sampled_rows."
  },
  {
   "property": "C67",
   "status": "proved",
   "theorems": [
    "Knor.Dense.C67_every_object",
    "Knor.Dense.C67_create",
    "Knor.Dense.C67_get",
    "Knor.Dense.C67_set",
    "Knor.Dense.C67_peq",
    "Knor.Dense.C67_setRow",
    "Knor.Dense.C67_mul",
    "Knor.Dense.C67_plus",
    "Knor.Dense.C67_minus",
    "Knor.Dense.C67_mean",
    "Knor.Dense.C67_sums",
    "Knor.Dense.C67_frobenius",
    "Knor.Dense.C67_elementwise",
    "Knor.Dense.C67_divEq",
    "Knor.Dense.C67_divVec",
    "Knor.Dense.C67_eq",
    "Knor.Dense.C67_vdiff",
    "Knor.Dense.C67_violation_vdiff_short",
    "Knor.Dense.C67_dot",
    "Knor.Dense.C67_dot_mismatch",
    "Knor.Dense.C67_norm",
    "Knor.Dense.C67_vecMat"
   ],
   "note": "Equalities with Mathlib matrices through the row-major storage function; C67_violation_vdiff_short records an unchecked output length (caller obligation)."
  },
  {
   "property": "C68",
   "status": "partial",
   "theorems": [
    "Knor.Dense.C68_plus_minus_rejected",
    "Knor.Dense.C68_violation_product_unchecked",
    "Knor.Dense.C68_violation_product_reads_past_end",
    "Knor.Dense.C68_minus_vector_partial",
    "Knor.Dense.C68_violation_minus_vector_not_square"
   ],
   "note": "Sums, differences and divisions report; the product does not check shapes and vector subtraction aborts for every non-square matrix (violations proved)."
  },
  {
   "property": "C69",
   "status": "partial",
   "theorems": [
    "Knor.Dense.C69_argmax_partial",
    "Knor.Dense.C69_violation_negative"
   ],
   "note": "Holds when the line has an entry above DBL_MIN; C69_violation_negative otherwise."
  },
  {
   "property": "C70",
   "status": "proved",
   "theorems": [
    "Knor.Medoid.C70_settled_is_optimal"
   ],
   "note": "Full statement."
  },
  {
   "property": "C71",
   "status": "partial",
   "theorems": [
    "Knor.Score.C71_xmeans_bic_partial",
    "Knor.Xmeans.C71_xmeans_terminates_safely_partial",
    "Knor.Xmeans.C71_violated"
   ],
   "note": "Total correctness for min_clust_size >= 2 (the default) and max_iters >= 1, any decisions; memory fault for min_clust_size = 1 (C71_violated). C71_xmeans_bic_partial: the same with the decisions computed by the criterion."
  },
  {
   "property": "C72",
   "status": "partial",
   "theorems": [
    "Knor.Xmeans.C72_recorded_mean_partial",
    "Knor.Xmeans.C72_xmeans_violated",
    "Knor.Xmeans.C72_gmeans_violated"
   ],
   "note": "Proved for cluster numbers that have not been split before; false for reused numbers in both algorithms (C72_xmeans_violated, C72_gmeans_violated): the running mean is never reset."
  },
  {
   "property": "C73",
   "status": "partial",
   "theorems": [
    "Knor.Score.C73_gmeans_ad_partial",
    "Knor.Xmeans.C73_violated",
    "Knor.Xmeans.C73_gmeans_early_rounds_partial"
   ],
   "note": "False: C73_violated is a read outside the partition means. Proved: in the first 3K-6 rounds nothing else can go wrong and a finished run loses no row (with the decisions computed by the test, its assertion can fail: C73_gmeans_ad_partial)."
  },
  {
   "property": "C74",
   "status": "partial",
   "theorems": [
    "Knor.Io.C74_file_determines_result_partial",
    "Knor.Io.C74_violated_centroid_digits",
    "Knor.Io.C74_violated_empty_cluster"
   ],
   "note": "Proved for results with vectors of matching lengths, up to the formatting of centroids; false for centroid digits (C74_violated_centroid_digits) and for hierarchical results with an empty cluster (C74_violated_empty_cluster)."
  },
  {
   "property": "C75",
   "status": "partial",
   "theorems": [
    "Knor.Io.C75_vector_equality_partial",
    "Knor.Io.C75_result_equality_partial",
    "Knor.Io.C75_violated_shorter",
    "Knor.Io.C75_violated_longer",
    "Knor.Io.C75_array_equality_partial",
    "Knor.Io.C75_violated_last_element",
    "Knor.Io.C75_constant"
   ],
   "note": "False of the code for vectors of different lengths and for the last element of arrays (C75_violated_*); the partial theorems cover equal lengths and say exactly what is compared."
  },
  {
   "property": "C76",
   "status": "partial",
   "theorems": [
    "Knor.Io.C76_binary_lines",
    "Knor.Io.C76_binary_seek",
    "Knor.Io.C76_violated_seek_after_end",
    "Knor.Io.C76_text_lines_partial",
    "Knor.Io.C76_text_read",
    "Knor.Io.C76_violated_long_line",
    "Knor.Io.C76_violated_short_line"
   ],
   "note": "Proved for binary files and well-formed text files; false for ragged text lines and for seeking after the end (C76_violated_*)."
  },
  {
   "property": "C77",
   "status": "proved",
   "theorems": [
    "Knor.Repro.C77_kmeans_reproducible",
    "Knor.Repro.C77_pruned_reproducible",
    "Knor.Repro.C77_kmeanspp_reproducible",
    "Knor.Repro.C77_multistart_reproducible",
    "Knor.Repro.C77_omp_reproducible",
    "Knor.Repro.C77_omp_pruned_reproducible",
    "Knor.Repro.C77_mpi_reproducible",
    "Knor.Repro.C77_mpi_pruned_reproducible",
    "Knor.Repro.C77_minibatch_reproducible",
    "Knor.Repro.C77_medoids_reproducible",
    "Knor.Repro.C77_fcm_reproducible",
    "Knor.Repro.C77_skmeans_reproducible",
    "Knor.Repro.C77_hclust_reproducible",
    "Knor.Repro.C77_xmeans_gmeans_reproducible",
    "Knor.Repro.C77_thread_count_matters_when_addition_rounds"
   ],
   "note": "For every coordinator (k-means, pruned, k-means++, multi-start, MPI, mini-batch, medoids, fuzzy, scaled, hierarchical, x-/g-means given the split decisions); no law of arithmetic assumed. OpenMP: given the row-to-thread assignment and the order of the reduction. MPI: given the order of the allreduce. A different number of threads can change the result when addition rounds (C77_thread_count_matters_when_addition_rounds)."
  },
  {
   "property": "C78",
   "status": "proved",
   "theorems": [
    "Knor.Rounding.C78_centroid_near_mean",
    "Knor.Rounding.C78_run_result",
    "Knor.Rounding.C78_single_member_exact",
    "Knor.Rounding.C78_limit_pruned_drifts"
   ],
   "note": "Iterations and whole runs of the unpruned pthread version, any arithmetic in the standard model with underflow term; the claim is about this version only: the incremental sums of the pruned version drift (C78_limit_pruned_drifts)."
  },
  {
   "property": "C79",
   "status": "partial",
   "theorems": [
    "Knor.Score.C79_recorded_distance",
    "Knor.Score.C79_converged_distance",
    "Knor.Score.C79_runs_partial",
    "Knor.Score.C79_parent_score_partial",
    "Knor.Score.C79_limit_child_score",
    "Knor.Score.C79_limit_unit_decides",
    "Knor.Score.C79_violated",
    "Knor.Score.C79_limit_sizes_ignored"
   ],
   "note": "The score of the unsplit partition is the criterion (C79_parent_score_partial); the score of the two sides is not, and the decision depends on the unit of measurement (C79_violated, C79_limit_unit_decides) and not on the sizes of the sides (C79_limit_sizes_ignored). In every round of a run the sizes and the distances to the partition mean are right (C79_runs_partial), the recorded distances to the sides are those of an earlier iteration (C79_recorded_distance), and those to the final means if the partition converged with tolerance zero (C79_converged_distance)."
  },
  {
   "property": "C80",
   "status": "proved",
   "theorems": [
    "Knor.Score.C80_textbook",
    "Knor.Score.C80_no_statistic_iff",
    "Knor.Score.C80_order_irrelevant",
    "Knor.Score.C80_unit_irrelevant",
    "Knor.Score.C80_standardising_irrelevant",
    "Knor.Score.C80_nonneg"
   ],
   "note": "Exact arithmetic over the reals; the distribution function is a parameter (libm erfc in the code), the examples use the normal one."
  },
  {
   "property": "C81",
   "status": "partial",
   "theorems": [
    "Knor.Score.C81_runs_partial",
    "Knor.Score.C81_limit_duplicates_fail",
    "Knor.Score.C81_limit_constant_data_fails",
    "Knor.Score.C81_rule_partial",
    "Knor.Score.C81_limit_never_at_first",
    "Knor.Score.C81_violated",
    "Knor.Score.C81_violated_abort",
    "Knor.Score.C81_limit_first_round"
   ],
   "note": "The critical value is computed for the number of partitions instead of the size of the sample: C81_rule_partial, C81_violated with the true normal distribution; with at most three partitions no split is ever taken back (C81_limit_never_at_first); constant integer projections abort (C81_violated_abort). In runs the sample is that of the projections of the rows on the line through the means of the sides (C81_runs_partial); partitions of copies of one row, and so constant data, abort g-means (C81_limit_duplicates_fail, C81_limit_constant_data_fails)."
  },
  {
   "property": "C82",
   "status": "proved",
   "theorems": [
    "Knor.Driver.C82_call",
    "Knor.Driver.C82_bounded_data",
    "Knor.Driver.C82_knori"
   ],
   "note": "Exact arithmetic. C82_bounded_data needs only bounded entries for the metrics without a division; for the cosine metric C82_call keeps the hypothesis that no deciding distance is NaN."
  },
  {
   "property": "C83",
   "status": "partial",
   "theorems": [
    "Knor.Gmm.C83_violated",
    "Knor.Gmm.C83_violated_out_of_bounds",
    "Knor.Gmm.C83_violated_columns",
    "Knor.Gmm.C83_violated_race",
    "Knor.Gmm.C83_violated_kmeanspp",
    "Knor.Gmm.C83_start_partial"
   ],
   "note": "The code violates it: after the first iteration nothing has been estimated and the responsibilities of the first rows are NaN (C83_violated); with more rows per worker than components, the normal case, or more columns than components it reads or writes out of bounds (C83_violated_out_of_bounds, C83_violated_columns); all workers write the same lines (C83_violated_race); the documented k-means++ initialisation throws (C83_violated_kmeanspp). What holds is that random initialisation starts with distributions (C83_start_partial)."
  },
  {
   "property": "C84",
   "status": "partial",
   "theorems": [
    "Knor.Driver.C84_call_partial",
    "Knor.Driver.C84_same_as_unpruned_partial",
    "Knor.Driver.C84_violated",
    "Knor.Driver.C84_violated_sizes",
    "Knor.Driver.C84_violated_one_cluster",
    "Knor.Driver.C84_bounded_data_partial",
    "Knor.Driver.C84_knori_partial"
   ],
   "note": "The code violates it: the default call can return clusters that are not those of Lloyd although it reports convergence (C84_violated); one cluster fails an assertion (C84_violated_one_cluster); random partition without iterations reports zero sizes (C84_violated_sizes). Proved for every call: option handling, the start, and after any iteration a partition with true sizes and means (C84_call_partial, C84_bounded_data_partial, C84_knori_partial); Lloyd and agreement with the unpruned call for the Euclidean metric if the first moves are small (C84_same_as_unpruned_partial)."
  },
  {
   "property": "C85",
   "status": "proved",
   "theorems": [
    "Knor.Driver.C85_job",
    "Knor.Driver.C85_any_processes",
    "Knor.Driver.C85_bounded_data",
    "Knor.Driver.C85_knord",
    "Knor.Driver.C85_option_order",
    "Knor.Driver.C85_limit_fewer_rows_than_ranks"
   ],
   "note": "Exact arithmetic; MPI reductions in any order are then equal. C85_bounded_data and C85_knord need only bounded entries for the metrics without a division; for the cosine metric C85_job keeps the hypothesis that no deciding distance is NaN. More processes than rows divide by zero (C85_limit_fewer_rows_than_ranks). The order of -t and -C matters, against a comment in the program (C85_option_order)."
  },
  {
   "property": "C86",
   "status": "partial",
   "theorems": [
    "Knor.Driver.C86_job_partial",
    "Knor.Driver.C86_same_as_unpruned_partial",
    "Knor.Driver.C86_bounded_data_partial",
    "Knor.Driver.C86_knord_partial",
    "Knor.Driver.C86_violated_sqeucl",
    "Knor.Driver.C86_violated_sizes",
    "Knor.Driver.C86_violated_one_cluster"
   ],
   "note": "The code violates it: with squared Euclidean distances the pruned job can return clusters that are not those of Lloyd (C86_violated_sqeucl); random partition without iterations reports zero sizes (C86_violated_sizes); one cluster fails an assertion (C86_violated_one_cluster). Proved for the Euclidean metric: the result is one of Lloyd with ties broken freely, and the same as that of the unpruned job if no row is ever equally near to two centroids."
  },
  {
   "property": "C87",
   "status": "partial",
   "theorems": [
    "Knor.Driver.C87_call_partial",
    "Knor.Driver.C87_bounded_data_partial",
    "Knor.Driver.C87_program_partial",
    "Knor.Driver.C87_violated_cosine",
    "Knor.Driver.C87_violated_centers"
   ],
   "note": "The code violates it: given centres are not scaled, and are compared with scaled rows (C87_violated_centers); with the default cosine metric an assertion fails as soon as some row is minimal in every column, because it is scaled to the zero vector (C87_violated_cosine); constant columns and columns without a positive entry are scaled wrongly (C38). Proved: all calls on data without such columns, centres being taken as they are; C87_bounded_data_partial needs no assumption on the run for the metrics without a division."
  },
  {
   "property": "C88",
   "status": "proved",
   "theorems": [
    "Knor.Driver.C88_call",
    "Knor.Driver.C88_default_tolerance",
    "Knor.Driver.C88_program"
   ],
   "note": "Exact arithmetic. Memberships of a row that lies on a centre, or has a NaN distance, are only said to be positive and to add up to 1: see C41 for what the code does there. The hypothesis on the smallest positive number says that 1/k to the power of the fuzziness index does not underflow."
  },
  {
   "property": "C89",
   "status": "partial",
   "theorems": [
    "Knor.Driver.C89_call_partial",
    "Knor.Driver.C89_program_partial",
    "Knor.Driver.C89_violated_centers",
    "Knor.Driver.C89_violated_metric"
   ],
   "note": "The code violates it: the Euclidean distance is used whatever metric is requested (C89_violated_metric); the program with a file of centres always throws (C89_violated_centers); every initialisation but Forgy is refused, also random, the default of the library, and so is numa_opt (part of C89_call_partial). Proved: every Forgy call returns the result of k-medoids with the Euclidean distance."
  },
  {
   "property": "C90",
   "status": "partial",
   "theorems": [
    "Knor.Driver.C90_call_partial",
    "Knor.Driver.C90_program_partial",
    "Knor.Driver.C90_violated"
   ],
   "note": "The code violates it: when a split leaves a side without rows, as on equal rows, the programs fail an assertion and the library for the bindings returns more centroids than clusters (C90_violated). The initialisations random and kmeanspp, the default of the library, are refused, and kmax below 2 fails an assertion (parts of C90_call_partial). Proved: every other call with at least one iteration and smallest size at least 2 returns normally with a clustering of all rows (bindings), and the programs return exactly the results that have as many centroids as clusters, whose centroids are the means."
  },
  {
   "property": "C91",
   "status": "partial",
   "theorems": [
    "Knor.Driver.C91_xmeans_call_partial",
    "Knor.Driver.C91_gmeans_call_partial",
    "Knor.Driver.C91_violated_gmeans",
    "Knor.Driver.C91_xmeans_program_partial",
    "Knor.Driver.C91_gmeans_program_partial"
   ],
   "note": "The code violates it: no call of g-means on equal rows returns a result (C91_violated_gmeans), and programs fail an assertion when there are more centroids than clusters, as in C90_violated. Proved: x-means calls with at least one iteration and smallest size at least 2 always end normally (bindings), with every row accounted for; the programs return the same result or fail that assertion; g-means calls throw nothing in the first 3K-6 rounds and account for every row when they return."
  },
  {
   "property": "C92",
   "status": "partial",
   "theorems": [
    "Knor.Driver.C92_call_partial",
    "Knor.Driver.C92_pruned_call_partial",
    "Knor.Driver.C92_knori_partial",
    "Knor.Driver.C92_violated"
   ],
   "note": "The code violates it: the last iteration of the limit is not done, and a limit of 1 returns the start itself (C92_violated; the loop alone is C37). Proved for the unpruned call: all refusals, and the exact result of maxIters - 1 iterations. Proved for the pruned call: a partition of the rows, nearest clusters when one iteration is done, and the result of Lloyd's algorithm under the condition of C84 on the first moves."
  },
  {
   "property": "C93",
   "status": "proved",
   "theorems": [
    "Knor.Hclust.C93_clusters_arise_by_bisecting",
    "Knor.Driver.C93_call"
   ],
   "note": "C93_clusters_arise_by_bisecting for runs and C93_call for whole calls; TwoMeans.unique and TwoMeans.exists show that the specification determines the result. The distances of rows to means must be below numeric_limits<double>::max()."
  },
  {
   "property": "C94",
   "status": "partial",
   "theorems": [
    "Knor.Hclust.C94_large_clusters_remain_only_among_many_partial",
    "Knor.Driver.C94_call_partial",
    "Knor.Driver.C94_violated"
   ],
   "note": "The code violates it: nine rows with kmax = 8 give seven clusters, two of which could be split (C94_violated). Proved: then the number of centroids is at least half of the power of two, plus 2; for runs and for whole calls."
  },
  {
   "property": "C95",
   "status": "proved",
   "theorems": [
    "Knor.Driver.C95_call",
    "Knor.Driver.C95_bounded_data",
    "Knor.Driver.C95_default_tolerance",
    "Knor.Driver.C95_mb_knori"
   ],
   "note": "For exact arithmetic; what the metric assumes about overflow is discharged for bounded entries and the Euclidean, squared Euclidean and taxicab metrics."
  },
  {
   "property": "C96",
   "status": "partial",
   "theorems": [
    "Knor.Driver.C96_call_partial",
    "Knor.Driver.C96_violated",
    "Knor.Driver.C96_same",
    "Knor.Driver.C96_kmeanspp_partial"
   ],
   "note": "With two or more starts the code indexes a vector that it has cleared: undefined by the language (C96_violated). Proved for a single start, and for any number of starts with a library whose clear keeps the storage."
  },
  {
   "property": "C97",
   "status": "proved",
   "theorems": [
    "Knor.NearLloyd.C97_sqeucl",
    "Knor.NearLloyd.C97_taxi",
    "Knor.NearLloyd.C97_eucl",
    "Knor.NearLloyd.C97_double_sqeucl",
    "Knor.NearLloyd.C97_double_eucl",
    "Knor.NearLloyd.C97_double_taxi"
   ],
   "note": "C97_sqeucl, C97_taxi, C97_eucl are for any arithmetic of the standard model with explicit constants; C97_double_* specialise to IEEE 754, given as `results are nearest doubles'. No fused multiply-add (the default build for x86-64 has none); cosine distance not covered."
  },
  {
   "property": "C98",
   "status": "proved",
   "theorems": [
    "Knor.NearLloyd.C98_near_lloyd_is_lloyd",
    "Knor.NearLloyd.C98_double_eucl",
    "Knor.NearLloyd.C98_double_taxi"
   ],
   "note": "C98_near_lloyd_is_lloyd is for any arithmetic of the standard model; C98_double_eucl and C98_double_taxi specialise it. The stopping fraction is the one computed in doubles from the exact count. The squared Euclidean distance (no global Lipschitz constant) is not covered."
  },
  {
   "property": "C99",
   "status": "partial",
   "theorems": [
    "Knor.Cli.C99_tables",
    "Knor.Cli.C99_parse",
    "Knor.Cli.C99_mistake",
    "Knor.Cli.C99_prologue",
    "Knor.Cli.C99_stops",
    "Knor.Cli.C99_knori",
    "Knor.Cli.C99_mb_knori",
    "Knor.Cli.C99_skmeans",
    "Knor.Cli.C99_fcm",
    "Knor.Cli.C99_hmeans",
    "Knor.Cli.C99_gmeans",
    "Knor.Cli.C99_medoids",
    "Knor.Cli.C99_kmeanspp",
    "Knor.Cli.C99_knori_lloyd",
    "Knor.Cli.C99_knori_pruned_partial",
    "Knor.Cli.C99_number_partial",
    "Knor.Cli.C99_number_refused_partial",
    "Knor.Cli.C99_short",
    "Knor.Cli.C99_number_violated",
    "Knor.Cli.C99_word_violated",
    "Knor.Cli.C99_atol_violated",
    "Knor.Cli.C99_atol_partial",
    "Knor.Cli.C99_hex",
    "Knor.Cli.C99_atol_sign_partial",
    "Knor.Cli.C99_order_violated",
    "Knor.Cli.C99_missing_violated",
    "Knor.Cli.C99_dashes_violated"
   ],
   "note": "Proved for proper command lines (C99_parse, C99_prologue; C99_knori, C99_mb_knori, C99_skmeans, C99_fcm, C99_hmeans, C99_gmeans, C99_medoids, C99_kmeanspp for the call each program makes; C99_knori_lloyd for what is delivered) and mistakes (C99_mistake, C99_stops). The code violates the full property: decimal numbers are taken modulo 2^32 when the overflow happens in the multiplication (C99_number_violated; C99_number_partial is what holds), letters count as digits (C99_word_violated), numbers of rows and columns go through atol (C99_atol_violated), only the number of words is checked (C99_missing_violated), a positional parameter named after a positional word shifts the others (C99_order_violated), and --k is a positional word (C99_dashes_violated). The pruned variant is delivered as in C84 (partial). knord uses getopt and is not covered. 0 clusters is not followed."
  },
  {
   "property": "C100",
   "status": "partial",
   "theorems": [
    "Knor.Cli.C100_knord",
    "Knor.Cli.C100_mistake",
    "Knor.Cli.C100_few",
    "Knor.Cli.C100_files",
    "Knor.Cli.C100_lloyd",
    "Knor.Cli.C100_pruned_partial",
    "Knor.Cli.C100_number_violated",
    "Knor.Cli.C100_order_violated"
   ],
   "note": "Proved for proper command lines (C100_knord, C100_lloyd) and mistakes (C100_mistake, C100_few, C100_files). The code violates the full property: arguments that should be numbers go through atol and atoi, so that words are 0 and large or negative numbers wrap (C100_number_violated), and an initialisation after a file of centres is not ignored although the program says so (C100_order_violated). Without -P the result is that of C86 (C100_pruned_partial). GNU getopt without POSIXLY_CORRECT is part of the model. 0 clusters is not followed."
  },
  {
   "property": "C101",
   "status": "proved",
   "theorems": [
    "Knor.Distr.C101_order_irrelevant",
    "Knor.Distr.C101_order_irrelevant_pruned",
    "Knor.Distr.C101_near",
    "Knor.Distr.C101_near_is_lloyd",
    "Knor.Distr.C101_double_eucl",
    "Knor.Distr.C101_double_taxi",
    "Knor.Distr.C101_double_eucl_separated",
    "Knor.Distr.C101_double_taxi_separated",
    "Knor.Distr.C101_order_matters"
   ],
   "note": "C101_order_irrelevant(_pruned) for exact sums, C101_near in general, C101_double_* for doubles, C101_order_matters as a witness that rounding makes the order visible. Every rank is assumed to receive the same reduced number, which MPI requires of MPI_Allreduce. The rule that a run with 0 changes is a fixed point needs the same order in every reduction. Pruned runs on doubles are not covered here."
  },
  {
   "property": "C102",
   "status": "proved",
   "theorems": [
    "Knor.Distr.C102_near",
    "Knor.Distr.C102_double_eucl",
    "Knor.Distr.C102_double_eucl_separated",
    "Knor.Distr.C102_same_as_unpruned"
   ],
   "note": "C102_near in general, C102_double_eucl and C102_double_eucl_separated for doubles, C102_same_as_unpruned compares with the job without pruning. The bounds are worst-case and not claimed to be tight. Starting centroids are given to every rank (option 'none'); the local pruned version starts with wrong previous means (C22) and is not covered."
  },
  {
   "property": "C103",
   "status": "partial",
   "theorems": [
    "Knor.Flat.C103_cells",
    "Knor.Flat.C103_from_means",
    "Knor.Flat.C103_frame",
    "Knor.Flat.C103_abstraction",
    "Knor.Flat.C103_eq",
    "Knor.Flat.C103_assign_partial",
    "Knor.Flat.C103_assign_violated",
    "Knor.Flat.C103_assign_ub",
    "Knor.Flat.C103_set_mean_iterator",
    "Knor.Flat.C103_set_mean_iterator_violated",
    "Knor.Flat.C103_size_violated",
    "Knor.Flat.C103_sparse",
    "Knor.Flat.C103_sparse_abstraction",
    "Knor.Flat.C103_sparse_room_violated"
   ],
   "note": "Violated: operator= does not copy the completion flags (C103_assign_violated: the copy of a finalised container is divided again; C103_assign_ub when the sizes differ; C103_assign_partial says what is copied); set_mean from an iterator writes only one column (C103_set_mean_iterator on every container, C103_set_mean_iterator_violated); at k*n = 2^32 the vector is empty and the first member is written outside (C103_size_violated); peq on a growing container makes room for as many clusters as the other one has numbers (C103_sparse_room_violated). Proved: C103_cells, C103_from_means, C103_frame, C103_eq, C103_sparse; C103_abstraction and C103_sparse_abstraction show that the containers of Model/Clusters and Model/Xmeans, which all other theorems use, are faithful abstractions of the stored ones."
  },
  {
   "property": "C104",
   "status": "partial",
   "theorems": [
    "Knor.PairTable.C104_pairwise",
    "Knor.PairTable.C104_distance_matrix",
    "Knor.PairTable.C104_min_dist",
    "Knor.PairTable.C104_squared_violated"
   ],
   "note": "Violated for SQEUCL: C104_squared_violated, the call throws inside the parallel region. Proved for the other metrics: C104_pairwise in any arithmetic, C104_distance_matrix (textbook distances in exact arithmetic; cosine for non-zero rows), C104_min_dist."
  },
  {
   "property": "C105",
   "status": "partial",
   "theorems": [
    "Knor.Stats.C105_prune_stats",
    "Knor.Stats.C105_too_many",
    "Knor.Stats.C105_shares",
    "Knor.Stats.C105_no_iteration_violated",
    "Knor.Stats.C105_activations",
    "Knor.Stats.C105_activity",
    "Knor.Stats.C105_twice_violated",
    "Knor.Stats.C105_skipped_violated",
    "Knor.Stats.C105_unwritable_violated"
   ],
   "note": "Violated: get_stats before the first finalize is six NaN (C105_no_iteration_violated); a row reported twice in an iteration or left out of one gets a flag it should not have (C105_twice_violated, C105_skipped_violated); a file that cannot be opened is not noticed (C105_unwritable_violated). Proved: C105_prune_stats, C105_too_many, C105_shares, C105_activations, and C105_activity for iterations that report each row exactly once."
  },
  {
   "property": "C106",
   "status": "partial",
   "theorems": [
    "Knor.HierHelpers.C106_select_partial",
    "Knor.HierHelpers.C106_select_empty_violated",
    "Knor.HierHelpers.C106_select_last_violated",
    "Knor.HierHelpers.C106_counts",
    "Knor.HierHelpers.C106_partition_mean_violated"
   ],
   "note": "Violated: for a cluster without members memory before the assignments is read instead of the exception (C106_select_empty_violated, every draw); a cluster whose only member is the last row is not found unless that row is drawn (C106_select_last_violated); partition_mean calls a member function on a null pointer as soon as there is one partition (C106_partition_mean_violated). Proved: C106_select_partial (exactly when a member is returned and which), C106_counts."
  },
  {
   "property": "C107",
   "status": "partial",
   "theorems": [
    "Knor.Compare.C107_check_partial",
    "Knor.Compare.C107_check_exact_partial",
    "Knor.Compare.C107_shorter_violated",
    "Knor.Compare.C107_nan_violated",
    "Knor.Compare.C107_integer_violated",
    "Knor.Compare.C107_gmm_equality_partial",
    "Knor.Compare.C107_gmm_violated",
    "Knor.Compare.C107_set_computed"
   ],
   "note": "Violated: a shorter second collection is read past its end (C107_shorter_violated); NaN agrees with everything (C107_nan_violated); with an integer tolerance numbers that differ by one agree (C107_integer_violated); mixture results of different shapes (C107_gmm_violated). Proved: C107_check_partial, C107_check_exact_partial, C107_gmm_equality_partial, C107_set_computed."
  },
  {
   "property": "C108",
   "status": "partial",
   "theorems": [
    "Knor.TreeSize.C108_floor",
    "Knor.TreeSize.C108_ceil_partial",
    "Knor.TreeSize.C108_ceil_violated",
    "Knor.TreeSize.C108_zero_violated",
    "Knor.TreeSize.C108_exactness_needed",
    "Knor.TreeSize.C108_floor_eq",
    "Knor.TreeSize.C108_nodes_partial",
    "Knor.TreeSize.C108_nodes_violated"
   ],
   "note": "Violated: k = 0 (C108_zero_violated) and get_hclust_ceil above 2^31 (C108_ceil_violated) are undefined; get_max_hnodes never ends from 2^31 on (C108_nodes_violated), so a hierarchical coordinator for 2^30 clusters is never constructed. Proved: C108_floor (all k but 0), C108_ceil_partial, C108_nodes_partial, C108_exactness_needed (exactness at powers of two cannot be dropped), C108_floor_eq (the model of the coordinators uses the same number)."
  },
  {
   "property": "C109",
   "status": "partial",
   "theorems": [
    "Knor.DataUtil.C109_score",
    "Knor.DataUtil.C109_score_mono",
    "Knor.DataUtil.C109_only_first_row",
    "Knor.DataUtil.C109_projection_violated",
    "Knor.DataUtil.C109_memory",
    "Knor.DataUtil.C109_single_row",
    "Knor.DataUtil.C109_single_row_violated",
    "Knor.DataUtil.C109_projection_partial"
   ],
   "note": "Violated: spherical_projection leaves every row but the first unchanged under every schedule (C109_only_first_row, C109_projection_violated) and divides the first by the wrong number (C109_single_row_violated; C109_single_row says exactly when a single row is projected). Proved: C109_score, C109_score_mono (exact arithmetic), C109_memory, C109_projection_partial."
  },
  {
   "property": "C110",
   "status": "proved",
   "theorems": [
    "Knor.Driver.C110_call",
    "Knor.Driver.C110_separated",
    "Knor.Driver.C110_knori",
    "Knor.Driver.C110_exact"
   ],
   "note": "The cosine distance is excluded (it divides by norms that may be 0: C36). The draws enter as the numbers the engine gives; the code's threshold divides the draw by 2147483646 (see C30), which the statement keeps. C110_exact says that an exact call that meets C82 meets this specification too."
  },
  {
   "property": "C111",
   "status": "partial",
   "theorems": [
    "Knor.Driver.C111_exact",
    "Knor.Driver.C111_call_partial",
    "Knor.Driver.C111_separated",
    "Knor.Driver.C111_knori_partial"
   ],
   "note": "The variant uses one iteration less than its limit (C37, C92), so the theorems have maxIters - 1; and that a run without changes leaves every row with a nearest final centroid up to the error of the distances is shown for a runtime that keeps its distribution of the rows, because otherwise the final centroids may differ by the rounding of another order. C111_exact: an exact call that meets C92 meets this specification too."
  },
  {
   "property": "C112",
   "status": "proved",
   "theorems": [
    "Knor.Driver.C112_exact",
    "Knor.Driver.C112_rank_order",
    "Knor.Driver.C112_job",
    "Knor.Driver.C112_separated",
    "Knor.Driver.C112_knord_rank_order",
    "Knor.Driver.C112_knord"
   ],
   "note": "The order of each reduction is an arbitrary tree over the ranks, the same result reaching every rank (what MPI_Allreduce guarantees); C112_knord_rank_order shows that rank order gives the model of C85. The cosine metric has no error bound in this model (its quotient may cancel) and is excluded. Squared Euclid is covered up to rounding but not by the separated part. C112_exact: an exact job that meets C85 meets this specification too."
  },
  {
   "property": "C113",
   "status": "proved",
   "theorems": [
    "Knor.Driver.C113_exact",
    "Knor.Driver.C113_rank_order",
    "Knor.Driver.C113_job",
    "Knor.Driver.C113_separated",
    "Knor.Driver.C113_knord_rank_order",
    "Knor.Driver.C113_knord",
    "Knor.Driver.C113_same_as_unpruned"
   ],
   "note": "Stated for the Euclidean metric and at least two clusters: C86 shows that one cluster fails an assertion (also part of C113_job) and that pruning is wrong for metrics other than Euclid. The order of each reduction is an arbitrary tree over the ranks, the same result reaching every rank; C113_knord_rank_order shows that rank order gives the model of C86. C113_exact: an exact job that meets C86 meets this specification too."
  },
  {
   "property": "C114",
   "status": "partial",
   "theorems": [
    "Knor.Driver.C114_exact",
    "Knor.Driver.C114_call_partial",
    "Knor.Driver.C114_separated_partial",
    "Knor.Driver.C114_same_as_unpruned_partial",
    "Knor.Driver.C114_knori_partial"
   ],
   "note": "The full claim fails in exact arithmetic already (C84_violated): for the single-process pruned version, Lloyd's algorithm is proved under the condition that no centroid moves, in the first iteration, further than it is away from the origin afterwards (NearSmallFirstMoves); the rest needs no such condition. One cluster fails an assertion (part of C114_call_partial), and a call without iterations reports wrong sizes for the random partition (C84_violated_sizes). C114_exact: an exact call that meets C84 meets this specification too."
  },
  {
   "property": "C115",
   "status": "proved",
   "theorems": [
    "Knor.Driver.C115_exact",
    "Knor.Driver.C115_call",
    "Knor.Driver.C115_default_tolerance",
    "Knor.Driver.C115_separated",
    "Knor.Driver.C115_mb_knori"
   ],
   "note": "The cosine metric is excluded in the statement, as in C110. Draws and the tolerance are arbitrary finite doubles (the tolerance may be anything when only the call is stated); rows outside the matrix play no role. C115_exact: an exact call that meets C95 meets this specification too, if the fraction of the rows in a batch is a double."
  },
  {
   "property": "C116",
   "status": "partial",
   "theorems": [
    "Knor.Gmm.C116_refuses",
    "Knor.Gmm.C116_violated",
    "Knor.Gmm.C116_violated_kmeanspp",
    "Knor.Gmm.C116_library_partial",
    "Knor.Gmm.C116_prog_refuses",
    "Knor.Gmm.C116_violated_prog",
    "Knor.Cli.C116_gmm",
    "Knor.Cli.C116_violated_gmm"
   ],
   "note": "The code violates it: outside of the R and Python packages soft_run prints the state after the initialisation and exits with status 143 (911 mod 256), for every call that is not refused (C116_violated), so the program never fits anything and never writes (C116_violated_prog, C116_violated_gmm); iterations, tolerance and the covariance regularizer have no effect; kmeanspp throws (C116_violated_kmeanspp). What holds: refusals (C116_refuses, C116_prog_refuses), which parameters reach the library (C116_gmm), and that with the macro BIND the call is the fit of C83 on the matrix with these parameters (C116_library_partial). Writing the result is commented out in the program."
  },
  {
   "property": "C117",
   "status": "partial",
   "theorems": [
    "Knor.Driver.C117_exact",
    "Knor.Driver.C117_call_partial",
    "Knor.Driver.C117_program_partial",
    "Knor.Driver.C117_violated_negative"
   ],
   "note": "C117_call_partial and C117_program_partial are the statement for columns whose largest entry is at least 2^-1022, or not negative with a smallest one of at most -2^-960. Missing: other columns, which the code does not stretch because the running maximum starts at the smallest positive double (C117_violated_negative: a column with entries between -2b and -b ends up in [0, 5/8]); given centres are used as they are, not scaled (C87_violated_centers). C117_exact: an exact call that meets C87 meets this specification too."
  },
  {
   "property": "C118",
   "status": "partial",
   "theorems": [
    "Knor.Driver.C118_energy",
    "Knor.Driver.C118_exact",
    "Knor.Driver.C118_call_partial",
    "Knor.Driver.C118_program_partial"
   ],
   "note": "C118_call_partial and C118_program_partial are the statement for forgy_init and the Euclidean distance; C118_energy bounds the growth of the sum of distances, C118_exact says that without rounding the specification is that of C89. Missing: the requested metric is ignored (C89_violated_metric), other initialisations, centres and numa_opt are refused (C89_violated_centers and the first part of C118_call_partial)."
  },
  {
   "property": "C119",
   "status": "partial",
   "theorems": [
    "Knor.Driver.C119_exact",
    "Knor.Driver.C119_call_partial",
    "Knor.Driver.C119_program_partial"
   ],
   "note": "C119_call_partial and C119_program_partial are the statement for the Euclidean distance, rows of absolute value at most 2^100 of which some k+1 are at least 2^-97 apart, and (2k)^m <= 2^200; C119_exact says that an iteration without rounding (C88) meets the specification. Missing: the other metrics, rows and exponents outside these bounds (the weights of a cluster can then vanish, and its centre is a division by zero), and the documented initialisations random and kmeanspp, which are refused."
  },
  {
   "property": "C120",
   "status": "partial",
   "theorems": [
    "Knor.Driver.C120_call_partial",
    "Knor.Driver.C120_kmeanspp_partial",
    "Knor.Driver.C120_best",
    "Knor.Driver.C120_exact"
   ],
   "note": "C120_call_partial and C120_kmeanspp_partial are the statement for the metrics eucl, sqeucl and taxi, for a single start or a library whose clear keeps a vector's storage; with several starts under the language's rules every call is undefined, which the same theorems prove. C120_best says that the reported start is the best one for exact distances, up to the errors. C120_exact says that an exact call that meets C96 meets this specification too. Missing: the cosine metric."
  }
 ]
}