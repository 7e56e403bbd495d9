{"id": "C01", "title": "Thread row blocks partition the data set", "statement": "When a coordinator is created for nrow rows and any requested thread count, the (start,length) blocks it hands to its threads are non-empty, pairwise disjoint, consecutive and together cover exactly rows 0..nrow-1.", "quantifier": "every nrow from 1 to 2^32-1, every requested nthreads >= 1 (also more threads than rows)", "why_tests_cant": "Integer division with a remainder goes wrong only at particular (nrow, nthreads) pairs; tests try a few pairs.", "anchors": ["libman/coordinator.cpp: coordinator::coordinator, coordinator::get_rid_len_tup", "libman/kmeans_coordinator.cpp: build_thread_state"]}
{"id": "C02", "title": "Looking up a row by global id returns that row", "statement": "Asking the coordinator for global row r returns exactly the r-th row of the input matrix, whichever thread holds it.", "quantifier": "every nrow, nthreads and every row id r < nrow", "why_tests_cant": "The lookup does a binary search over block ends plus an offset subtraction; a boundary error shows only on block edges of some partitions.", "anchors": ["libman/coordinator.cpp: coordinator::get_thd_data", "libman/thread.cpp: thread::set_local_data_ptr, thread::numa_alloc_mem"]}
{"id": "C03", "title": "The task queue hands out each row exactly once", "statement": "Resetting a thread's task queue and repeatedly taking tasks until it reports empty terminates, yields consecutive non-empty tasks in order, covering each row of the block exactly once, and never a task larger than 8193 rows.", "quantifier": "every block length from 1 to 2^32-8193 and every start row", "why_tests_cant": "The split point test (curr + 8192 < nrow - 1) uses unsigned arithmetic and block lengths near multiples of 8192 matter; unit tests use tiny sizes.", "anchors": ["libman/task_queue.hpp: task_queue::get_task, task_queue::reset, task_queue::has_task"]}
{"id": "C04", "title": "MPI processes partition the rows and agree on ownership", "statement": "Every global row is local to exactly one process, global/local id conversions are mutually inverse on owned rows, and the process blocks cover the data set.", "quantifier": "every global row count, every process count >= 1, every rank and every row id, with 64-bit wrap-around subtraction", "why_tests_cant": "Ownership relies on unsigned wrap-around of global_rid - offset; only some (rows, procs, rank) triples exercise it.", "anchors": ["libdist/dist_coordinator.cpp: dist_coordinator::init, is_local, local_rid, global_rid"]}
{"id": "C05", "title": "Converting a global row id that the process does not own raises an error", "statement": "local_rid throws for every global row id the process does not own.", "quantifier": "every global row id, rank and process count", "why_tests_cant": "Needs the exact boundary id one past the block.", "anchors": ["libdist/dist_coordinator.cpp: dist_coordinator::local_rid"]}
{"id": "C06", "title": "E-step assigns every row to a nearest centroid", "statement": "After an unpruned iteration every row is assigned to a centroid at minimal distance, the lowest-numbered one on ties, and the internal 'a cluster was found' check cannot fire provided some distance is below DBL_MAX.", "quantifier": "every data set, every centroid set with k >= 1, every distance function and every linearly ordered distance type (so also NaN-free IEEE doubles)", "why_tests_cant": "Universal over all real-valued inputs including ties.", "anchors": ["libman/kmeans_thread.cpp: kmeans_thread::EM_step"]}
{"id": "C07", "title": "Reported number of changed rows is exact", "statement": "After each unpruned iteration the coordinator's change count equals the number of rows whose cluster id differs from before the iteration, for every split of rows over threads and every interleaving.", "quantifier": "every data set, thread count, schedule and previous assignment", "why_tests_cant": "Quantifies over schedules and data.", "anchors": ["libman/kmeans_thread.cpp: EM_step", "libman/kmeans_coordinator.cpp: update_clusters"]}
{"id": "C08", "title": "Cluster sizes are the assignment histogram and sum to nrow", "statement": "After every iteration the reported size of cluster c is the number of rows assigned to c, sizes sum to nrow and the consistency assertions cannot fire.", "quantifier": "every data set, thread count and schedule, every iteration", "why_tests_cant": "Conservation property over all data and schedules.", "anchors": ["libman/kmeans_coordinator.cpp: update_clusters", "libkcommon/clusters.cpp: clusters::peq, finalize"]}
{"id": "C09", "title": "Centroids are the means of their members", "statement": "After every iteration the centroid of a non-empty cluster is the arithmetic mean of the rows assigned to it; an empty cluster's centroid is the zero vector.", "quantifier": "every data set, thread count and schedule (exact arithmetic)", "why_tests_cant": "Universal over data; includes the 0- and 1-member special cases of the division guard.", "anchors": ["libkcommon/clusters.cpp: finalize", "libman/kmeans_coordinator.cpp: update_clusters"]}
{"id": "C10", "title": "Result does not depend on thread count or scheduling", "statement": "Running k-means with any number of threads and any interleaving of the workers gives the same assignments, sizes, centroids and iteration count as a serial Lloyd run from the same initial centroids (exact arithmetic).", "quantifier": "every data set, initial centroids, max_iters, tolerance, thread count, and every complete worker schedule of every iteration", "why_tests_cant": "Schedules and thread counts cannot be enumerated.", "anchors": ["libman/kmeans_coordinator.cpp: run, update_clusters", "libman/kmeans_thread.cpp: EM_step", "README.md: same answer over multiple runs"]}
{"id": "C11", "title": "Iteration budget is respected", "statement": "k-means performs no iteration when max_iters is 0, never more than max_iters iterations, stops at the first iteration in which no row or at most a tolerance fraction of rows changed, and reports that iteration's number (max_iters+1 if it never converged).", "quantifier": "every data set, max_iters, tolerance and start", "why_tests_cant": "Loop-bound property over all inputs.", "anchors": ["libman/kmeans_coordinator.cpp: kmeans_coordinator::run"]}
{"id": "C12", "title": "Convergence with no changes is a Lloyd fixed point", "statement": "If a run stops because nothing changed then every row is assigned to a centroid nearest among the *returned* centroids and each returned centroid is the mean of its members.", "quantifier": "every data set with every distance below DBL_MAX, every start, thread count and schedule", "why_tests_cant": "Relates final assignments to final centroids for all inputs.", "anchors": ["libman/kmeans_coordinator.cpp: kmeans_coordinator::run"]}
{"id": "C13", "title": "Within-cluster sum of squares never increases", "statement": "From one iteration to the next the sum over rows of the squared Euclidean distance to the assigned centroid does not increase.", "quantifier": "every data set, every iteration >= 2 and every start (Euclidean metric, exact arithmetic)", "why_tests_cant": "Optimisation property over all real data.", "anchors": ["libman/kmeans_thread.cpp: EM_step", "libman/kmeans_coordinator.cpp: update_clusters, run"]}
{"id": "C14", "title": "Unlimited k-means terminates", "statement": "With no iteration limit and the default negative tolerance the run reaches an iteration in which no row changes.", "quantifier": "every data set and start (Euclidean metric, exact arithmetic)", "why_tests_cant": "Liveness over an unbounded number of iterations; cycles caused by ties or empty clusters cannot be excluded by tests.", "anchors": ["libman/kmeans_coordinator.cpp: kmeans_coordinator::run"]}
{"id": "C15", "title": "Finalising and un-finalising cluster sums round-trips", "statement": "finalize is idempotent; unfinalize after finalize restores the running sums exactly and vice versa; counts are never changed by either.", "quantifier": "every cluster state with non-negative counts (exact arithmetic)", "why_tests_cant": "Holds for all counts including 0 and 1, where the code skips the division.", "anchors": ["libkcommon/clusters.cpp: clusters::finalize, clusters::unfinalize"]}
{"id": "C16", "title": "Merging thread-local cluster sums is order independent", "statement": "Adding the per-thread partial sums into the global clusters gives the same result in every order.", "quantifier": "every permutation of every list of partial sums", "why_tests_cant": "All permutations of all lists.", "anchors": ["libkcommon/clusters.cpp: clusters::peq, clusters::operator+="]}
{"id": "C17", "title": "Incremental membership updates equal a batch recomputation", "statement": "After any sequence of adding a member, removing a member and moving a member between clusters, sums and counts equal those computed from scratch from the resulting membership.", "quantifier": "every finite history of add/remove/move operations", "why_tests_cant": "Arbitrary operation histories.", "anchors": ["libkcommon/clusters.hpp: add_member, remove_member, swap_membership"]}
{"id": "C18", "title": "The centroid distance table stores one value per unordered pair", "statement": "For k >= 2, writing a value for an unordered pair of distinct clusters and reading any pair returns the last value written for that unordered pair, every access stays in bounds and no internal assertion fires; reading a pair (c,c) gives DBL_MAX.", "quantifier": "every k >= 2 and all pairs", "why_tests_cant": "The triangular index translation must be in range and injective for every k.", "anchors": ["libkcommon/dist_matrix.cpp: dist_matrix::translate, get, set"]}
{"id": "C19", "title": "Cluster separation values are half the distance to the closest other centroid", "statement": "After recomputing the centroid table each stored entry is half the Euclidean distance of the two centroids and each cluster's s-value is the minimum of its entries.", "quantifier": "every k >= 2 and every centroid set", "why_tests_cant": "Nested-loop minimum over all pairs for all k.", "anchors": ["libkcommon/dist_matrix.cpp: dist_matrix::compute_dist"]}
{"id": "C20", "title": "Pruned E-step is exact when its upper bounds are valid", "statement": "If each row's stored bound plus its centroid's recorded movement is at least the true distance to its centroid, the pruned step leaves every row at a nearest centroid, and the stored bounds are again valid.", "quantifier": "every metric satisfying the triangle inequality, every k, data, centroids, bounds", "why_tests_cant": "The triangle-inequality skip rules interact with reassignments inside the loop.", "anchors": ["libman/kmeans_task_thread.cpp: kmeans_task_thread::EM_step"]}
{"id": "C21", "title": "Distributed pruned k-means gives exact Lloyd iterations", "statement": "knord with pruning: at the end of every iteration every row is assigned to a centroid nearest among the centroids the iteration started from, and at convergence with no changes the result is a Lloyd fixed point.", "quantifier": "every data set, number of processes, iteration count, start", "why_tests_cant": "Inductive invariant over all iterations.", "anchors": ["libdist/dist_task_coordinator.cpp: run, pp_aggregate", "libman/kmeans_task_thread.cpp: EM_step"]}
{"id": "C22", "title": "Shared-memory pruned k-means gives exact Lloyd iterations", "statement": "knori with pruning (the default): if the run reports convergence with no changed rows then every row is assigned to a nearest returned centroid.", "quantifier": "every data set and start", "why_tests_cant": "Fails only for data where the first mean update moves a centroid far while the new centroid's norm is small.", "anchors": ["libman/kmeans_task_coordinator.cpp: update_clusters, run", "libman/kmeans_task_thread.cpp: EM_step"]}
{"id": "C23", "title": "Pruning is sound for every supported metric", "statement": "With any accepted distance metric the pruned step assigns every row to a centroid nearest under that metric.", "quantifier": "every metric accepted by the API (eucl, cos, taxi, sqeucl), all data", "why_tests_cant": "The table is always half Euclidean; only specific geometries reveal the mismatch.", "anchors": ["libkcommon/dist_matrix.cpp: compute_dist", "libman/kmeans_task_thread.cpp: EM_step"]}
{"id": "C24", "title": "Pruned M-step equals full recomputation", "statement": "After every pruned iteration sizes and centroids are those obtained by recomputing from the current assignments, although only changed rows were moved.", "quantifier": "every data set, thread count, task split and iteration (exact arithmetic)", "why_tests_cant": "Invariant across all iterations and all subsets of changed rows.", "anchors": ["libman/kmeans_task_coordinator.cpp: update_clusters", "libman/kmeans_task_thread.cpp: EM_step"]}
{"id": "C25", "title": "Pruned result does not depend on thread count or scheduling", "statement": "One pruned iteration yields the same assignments, bounds, sizes, centroids and change count for every thread count, task split and interleaving.", "quantifier": "every state, thread count and complete schedule", "why_tests_cant": "All schedules.", "anchors": ["libman/kmeans_task_thread.cpp: EM_step", "libman/kmeans_task_coordinator.cpp: update_clusters"]}
{"id": "C26", "title": "Distributed k-means equals single-process k-means", "statement": "knord without pruning yields, on every process, the centroids, sizes and change counts of a serial Lloyd run on the whole data set, and the gathered assignment vector is the serial one.", "quantifier": "every data set, process count, threads per process", "why_tests_cant": "All partitions over processes and threads.", "anchors": ["libdist/dist_coordinator.cpp: run, pp_aggregate", "libdist/mpi.hpp: reduce_double"]}
{"id": "C27", "title": "Forgy initialisation picks data rows", "statement": "After Forgy initialisation every centroid is a row of the data set, for every random stream; in the distributed version all processes hold the same centroids after the reduction.", "quantifier": "every random stream, k, data set, process count", "why_tests_cant": "All random streams.", "anchors": ["libman/kmeans_coordinator.cpp: forgy_init", "libdist/dist_coordinator.cpp: forgy_init, run"]}
{"id": "C28", "title": "Random-partition initialisation yields means of a partition", "statement": "After random initialisation every row has a cluster id below k, the sizes are the histogram and the centroids the means of those groups.", "quantifier": "every random stream into [0,k), every data set", "why_tests_cant": "All random streams.", "anchors": ["libman/kmeans_coordinator.cpp: random_partition_init"]}
{"id": "C29", "title": "k-means++ keeps exact nearest-chosen-centre distances", "statement": "During and after k-means++ initialisation each row's stored distance is the minimum distance to the centres chosen so far, its cluster id names a centre at that distance, every centre is a data row and the selection loop's assertion cannot fire for draws in [0,1].", "quantifier": "every data set, every random stream, every k >= 1, non-negative distance with d(x,x)=0", "why_tests_cant": "All random streams and data.", "anchors": ["libman/kmeans_coordinator.cpp: kmeanspp_init", "libman/kmeans_thread.cpp: kmspp_dist"]}
{"id": "C30", "title": "k-means++ can select every row with positive weight", "statement": "For every row whose distance to the chosen centres is positive there is a draw in [0,1) that selects it as the next centre.", "quantifier": "every data set and chosen centre set", "why_tests_cant": "Concerns all draws; a sampled test cannot show that a row is unreachable.", "anchors": ["libman/kmeans_coordinator.cpp: kmeanspp_init (division by RAND_MAX - 1.0)"]}
{"id": "C31", "title": "Distributed random initialisation reproduces the serial stream", "statement": "Concatenating the cluster ids drawn by all processes in rank order equals the ids a single process would draw for the whole data set; the interleaving generator likewise reproduces the serial stream.", "quantifier": "every process count, row count and random stream", "why_tests_cant": "All streams and partitions.", "anchors": ["libkcommon/util.hpp: rand123emulator, mpi_random_generator", "libdist/dist_coordinator.cpp: random_partition_init"]}
{"id": "C32", "title": "Mini-batch centroids stay in the convex hull", "statement": "Every mini-batch update uses a learning rate in (0,1], so each coordinate of every centroid stays within the interval spanned by its previous value and the sampled data.", "quantifier": "every data set, sample, iteration", "why_tests_cant": "All samples and histories.", "anchors": ["libman/kmeans_task_coordinator.cpp: mb_iteration_end", "libman/kmeans_task_thread.cpp: mb_finalize_centroids", "libkcommon/clusters.cpp: scale_centroid"]}
{"id": "C33", "title": "Mini-batch final assignment is nearest-centroid", "statement": "After a mini-batch run with at least one iteration every row is assigned to a nearest returned centroid and sizes are the histogram.", "quantifier": "every data set, every sampling outcome, every iteration count >= 1", "why_tests_cant": "All sampling outcomes.", "anchors": ["libman/kmeans_task_coordinator.cpp: mb_run"]}
{"id": "C34", "title": "A phase completes on all threads before the coordinator continues", "statement": "Whenever the coordinator returns from waiting, every worker has executed the requested phase exactly once and is idle.", "quantifier": "every number of workers, every interleaving of coordinator and worker steps, every number of phases", "why_tests_cant": "All interleavings.", "anchors": ["libman/coordinator.cpp: wake4run, wait4complete", "libman/thread.cpp: sleep, wait, wake", "libman/thread.hpp: callback"]}
{"id": "C35", "title": "The coordinator never misses the completion signal", "statement": "From every reachable state of the wake/wait protocol the coordinator can still proceed (no deadlock).", "quantifier": "every interleaving", "why_tests_cant": "The losing interleaving is a race of a few instructions.", "anchors": ["libman/coordinator.cpp: wait4complete", "libman/thread.cpp: thread::sleep"]}
{"id": "C36", "title": "Distance functions satisfy the metric facts the algorithms rely on", "statement": "Euclidean and taxicab distances are non-negative, symmetric, zero on equal rows, and satisfy the triangle inequality; squared Euclidean is the square of Euclidean and orders rows the same way.", "quantifier": "all dimensions and vectors (exact arithmetic)", "why_tests_cant": "Universal over vectors.", "anchors": ["libkcommon/util.hpp: eucl_dist, sqeucl_dist, taxi_dist"]}
{"id": "C37", "title": "OpenMP k-means honours max_iters", "statement": "The OpenMP variant performs up to max_iters iterations, as the pthread variant does.", "quantifier": "every max_iters and data set", "why_tests_cant": "Loop-bound comparison for all budgets.", "anchors": ["libauto/kmeans.cpp: compute_kmeans", "libauto/min-tri-kmeans.cpp: compute_min_kmeans"]}
{"id": "C38", "title": "Scaling (skmeans) maps data into [0,1]", "statement": "Spherical k-means' column scaling maps every entry of a column into [0,1], the column minimum to 0 and maximum to 1.", "quantifier": "every data set", "why_tests_cant": "Depends on sign of the data and constant columns.", "anchors": ["libman/skmeans.cpp", "libman/skmeans_coordinator.cpp"]}
{"id": "C39", "title": "Medoids are data rows and energy never increases", "statement": "Every medoid is always a row of the data set, and a medoid replacement never increases the cluster's energy.", "quantifier": "every data set, sampling outcome, iteration", "why_tests_cant": "All samples and histories.", "anchors": ["libman/medoid.cpp: EM_step, medoid_step", "libman/medoid_coordinator.cpp: choose_global_medoids"]}
{"id": "C40", "title": "Fuzzy c-means memberships are a probability distribution", "statement": "Before the fuzzifier power each row's memberships are positive and sum to 1 and each centre is a convex combination of rows.", "quantifier": "every data set, centre set, fuzz index > 1", "why_tests_cant": "Universal over data.", "anchors": ["libman/fcm.cpp", "libman/fcm_coordinator.cpp"]}
{"id": "C41", "title": "A row at a fuzzy centre belongs mostly to that centre", "statement": "A row that coincides with exactly one centre gets its largest membership for that centre.", "quantifier": "every data set and centre set", "why_tests_cant": "Only rows exactly on a centre take the special branch.", "anchors": ["libman/fcm.cpp: E-step (dist <= 0 branch)"]}
{"id": "C42", "title": "Hierarchical cluster ids are unique while alive", "statement": "The id generator never hands out an id that is currently in use, for every history of requests and reclaims.", "quantifier": "every finite history of next/reclaim in which only live ids are reclaimed, each once", "why_tests_cant": "Arbitrary histories.", "anchors": ["libman/hclust_id_generator.hpp"]}
{"id": "C43", "title": "Compaction of hierarchical results is a bijection", "statement": "Compacting cluster ids of a hierarchical result maps distinct live ids to distinct ids 0..m-1 and preserves the partition of rows.", "quantifier": "every assignment vector", "why_tests_cant": "All assignment vectors.", "anchors": ["libkcommon/hclust_compactor.hpp: remap", "libkcommon/types.cpp: cluster_t hierarchical constructor"]}
{"id": "C44", "title": "Compacted centroids belong to their clusters", "statement": "In a hierarchical result the centroid stored for compacted cluster c is the centroid of the original cluster mapped to c.", "quantifier": "every assignment vector and centroid map, including centroids of clusters that lost all rows", "why_tests_cant": "Only results with an empty live cluster trigger the fault.", "anchors": ["libkcommon/types.cpp:46-72"]}
{"id": "C45", "title": "Hierarchical splitting conserves rows", "statement": "In hierarchical clustering the cluster sizes always sum to nrow and equal the assignment histogram.", "quantifier": "every data set, history of splits", "why_tests_cant": "Invariant over all split histories.", "anchors": ["libman/hclust.cpp: H_EM_step", "libman/hclust_coordinator.cpp"]}
{"id": "C46", "title": "Rejecting a split restores the parent cluster", "statement": "When x-means or g-means rejects a split, every row of both children returns to the parent, its size becomes the sum of the children's sizes and no other row changes.", "quantifier": "every assignment vector and set of rejected splits", "why_tests_cant": "Universal over assignments and sets of splits.", "anchors": ["libman/xmeans_coordinator.cpp: partition_decision", "libman/gmeans_coordinator.cpp: partition_decision"]}
{"id": "C47", "title": "The growable map behaves as a finite map", "statement": "vmap insert/erase/lookup/iteration/keycount behave like a finite map from indices to values for every history.", "quantifier": "every operation history", "why_tests_cant": "Arbitrary histories; empty-map lookup wraps an unsigned subtraction.", "anchors": ["libkcommon/types.hpp: vmap"]}
{"id": "C48", "title": "The flag vector grows to hold every written flag", "statement": "After check_set(idx, v) the flag vector has more than idx entries, entry idx reads back v and every other entry is unchanged.", "quantifier": "every size, index and history of writes", "why_tests_cant": "Exactly one index per size is wrong.", "anchors": ["libkcommon/thd_safe_bool_vector.cpp: check_set"]}
{"id": "C49", "title": "Matrix determinant is correct", "statement": "linalg's recursive determinant equals the mathematical determinant.", "quantifier": "every n >= 1 and every n x n matrix", "why_tests_cant": "Recursion over all sizes.", "anchors": ["libkcommon/linalg.hpp: getCofactor, determinant"]}
{"id": "C50", "title": "Matrix inverse is correct", "statement": "When linalg's inverse reports success the result times the input is the identity.", "quantifier": "every n and every invertible matrix", "why_tests_cant": "Universal over matrices.", "anchors": ["libkcommon/linalg.hpp: adjoint, inverse"]}
{"id": "C51", "title": "Binary matrix files round-trip", "statement": "Reading back a matrix written row-major returns the same matrix, and a thread reading its block at its offset gets exactly its rows.", "quantifier": "every matrix and thread block", "why_tests_cant": "All shapes.", "anchors": ["libkcommon/io.hpp: bin_io, bin_rm_reader", "libman/thread.cpp: numa_alloc_mem"]}
{"id": "C52", "title": "k-means++ multi-start returns the best start", "statement": "The multi-start k-means++ driver returns the lowest energy over all starts together with the index and state of a start achieving it.", "quantifier": "every number of starts and every sequence of energies", "why_tests_cant": "All sequences.", "anchors": ["binding/kmeanspp.hpp: kmeansPP"]}
{"id": "C53", "title": "Distributed k-means++ chooses the serial centres", "statement": "Distributed k-means++ leaves on every process exactly the centres, and for each process's rows exactly the distances and cluster ids, that the single-process version computes on the whole data set from the same seed.", "quantifier": "every data set, process count up to the row count, thread count, interleaving and random stream", "why_tests_cant": "Depends on the gather of distances with a remainder on the last process and on clearing the non-owners' centroids before every reduction.", "anchors": ["libdist/dist_coordinator.cpp: kmeanspp_init", "libdist/dist_task_coordinator.cpp: kmeanspp_init"]}
{"id": "C54", "title": "Shutdown never uses destroyed synchronisation objects", "statement": "From construction to the end of destruction no worker thread locks, unlocks, waits on or signals a mutex or condition variable that has already been destroyed.", "quantifier": "every number of workers, every interleaving, every moment of destruction after any number of phases", "why_tests_cant": "The windows are a few instructions wide and the misuse is usually silent.", "anchors": ["libman/coordinator.cpp: ~coordinator, destroy_threads", "libman/thread.cpp: ~thread, join, wait, sleep"]}
{"id": "C55", "title": "Standardising a vector yields mean 0 and unit variance", "statement": "Standardising a vector that is not constant returns a vector with mean 0 and standard deviation 1.", "quantifier": "every length and every non-constant vector", "why_tests_cant": "Universal over vectors; a truncating accumulator is invisible on integer-valued test data.", "anchors": ["libkcommon/linalg.hpp: scale", "libman/gmeans_coordinator.cpp: partition_decision"]}
{"id": "C56", "title": "Hierarchical clustering terminates without memory faults", "statement": "A hierarchical run ends after a number of rounds bounded by the requested number of clusters, without failing an assertion and without using memory outside its vectors, and cluster ids stay below the capacity fixed at construction.", "quantifier": "every data set, metric, minimum cluster size, iteration count, cluster bound, thread count and interleaving", "why_tests_cant": "Id reuse over unbounded split histories decides whether the fixed capacity suffices.", "anchors": ["libman/hclust_coordinator.cpp: run, inner_init, spawn, init_splits, update_clusters", "libkcommon/util.hpp: get_max_hnodes", "libman/hclust_id_generator.hpp"]}
{"id": "C57", "title": "Hierarchical clustering reports at most kmax clusters", "statement": "The number of clusters in a hierarchical result is at most the requested maximum kmax.", "quantifier": "every data set, kmax and split history", "why_tests_cant": "All split histories.", "anchors": ["exec/hmeans.cpp:59", "libman/hclust_coordinator.hpp: at_cluster_cap", "libman/hclust_coordinator.cpp: activate, init_splits"]}
{"id": "C58", "title": "Hierarchical results report cluster means", "statement": "In a hierarchical result the centroid of every reported cluster is the arithmetic mean of the rows assigned to it.", "quantifier": "every data set, split history and iteration order of the centroid map", "why_tests_cant": "The fault needs a split that leaves one side empty and depends on hash order.", "anchors": ["libman/hclust_coordinator.cpp: inner_init, complete_final_centroids", "libkcommon/types.cpp:46-72"]}
{"id": "C59", "title": "Hierarchical iterations move rows to the nearer side only", "statement": "In every iteration of a hierarchical run a row of a finished cluster or converged partition stays, every other row goes to the nearer of its partition's two centroids (the first on a tie), and sizes and means afterwards are those of the new assignment.", "quantifier": "every data set, reachable state, thread count and interleaving", "why_tests_cant": "All reachable states and schedules.", "anchors": ["libman/hclust.cpp: H_EM_step", "libman/hclust_coordinator.cpp: update_clusters"]}
{"id": "C60", "title": "K-medoids uses the requested metric", "statement": "A k-medoids run assigns every row to the medoid nearest to it in the metric the user requested.", "quantifier": "every data set and metric", "why_tests_cant": "Ranges over all data sets; on most data the metrics agree on the nearest medoid.", "anchors": ["libman/medoid.cpp: constructor, EM_step", "libman/thread.hpp:121", "libman/medoid_coordinator.cpp:79-82"]}
{"id": "C61", "title": "K-medoids terminates at a stable clustering", "statement": "A k-medoids run with enough iterations allowed stops by its own convergence test, within N^k iterations for N rows and k clusters; with a negative tolerance it stops only when an iteration changes no assignment.", "quantifier": "every data set, symmetric distance, sampling outcome and interleaving", "why_tests_cant": "Termination of an unbounded loop over random draws.", "anchors": ["libman/medoid_coordinator.cpp: run, choose_global_medoids"]}
{"id": "C62", "title": "The OpenMP variant computes the same clustering as the pthread variant", "statement": "Given the same data, initialisation and random numbers, the OpenMP variant (one extra unit of budget, see C37) returns the same iteration number, assignments, sizes and centroids as the pthread variant, for any number of threads on either side.", "quantifier": "every data set, initialisation, budget, thread count, row distribution and interleaving", "why_tests_cant": "Equivalence of two engines over all inputs and schedules.", "anchors": ["libauto/kmeans.cpp: EM_step, compute_kmeans", "libauto/min-tri-kmeans.cpp: EM_step, compute_min_kmeans", "libman/kmeans_coordinator.cpp: run", "libman/kmeans_task_coordinator.cpp: run"]}
{"id": "C63", "title": "Fuzzy c-means reports the nearest centre of each row", "statement": "After a fuzzy c-means run with at least one iteration every row at positive distance from all centres of the last membership step is reported in the first of its nearest centres, every reported cluster number is below k, and the reported sizes count the rows; none of this depends on the number of threads or their interleaving.", "quantifier": "every data set, metric, fuzziness of at least 2, number of threads, interleaving and start", "why_tests_cant": "Ranges over all data sets and schedules; the arg-max starts at DBL_MIN and depends on the values' size.", "anchors": ["libman/fcm_coordinator.cpp: run", "libman/fcm.cpp: Estep, Mstep", "libkcommon/dense_matrix.hpp: argmax"]}
{"id": "C64", "title": "Fuzzy c-means never increases its objective", "statement": "With the squared Euclidean metric an iteration of fuzzy c-means never increases the sum over rows and centres of membership^fuzzindex times squared distance.", "quantifier": "every data set, set of centres, previous memberships, number of threads and interleaving", "why_tests_cant": "An inequality over all real inputs; it fails exactly when a row lies on a centre, as after every Forgy start.", "anchors": ["libman/fcm.cpp: Estep, Mstep", "libman/fcm_coordinator.cpp: run, update_contribution_matrix, update_centers"]}
{"id": "C65", "title": "Fuzzy c-means stops when told", "statement": "A fuzzy c-means run with a positive budget stops after the first iteration in which the centres move less than the tolerance and reports that iteration's number; otherwise it performs exactly the budgeted number of iterations (and then reports one more than the budget).", "quantifier": "every data set, tolerance, budget, start, number of threads and interleaving", "why_tests_cant": "Loop behaviour for all budgets, tolerances and schedules.", "anchors": ["libman/fcm_coordinator.cpp: run"]}
{"id": "C66", "title": "Mini-batch k-means stops when told and touches only the sample", "statement": "A mini-batch run stops after the first iteration whose centroid movement is below the tolerance, reporting its 0-based number, and otherwise performs exactly the budgeted iterations; a row is sampled with probability batch/N (1/N if the batch is smaller than the number of workers), a sampled row is assigned to its nearest centroid of the iteration's start and every other row keeps its assignment.", "quantifier": "every data set, batch size, random numbers, tolerance, budget, number of workers and interleaving", "why_tests_cant": "Loop and sampling behaviour for all random draws and schedules.", "anchors": ["libman/kmeans_task_coordinator.cpp: mb_run, mb_iteration_end", "libman/kmeans_task_thread.cpp: mb_EM_step"]}
{"id": "C67", "title": "Dense matrix and vector arithmetic is the textbook one", "statement": "For conforming operands the dense matrix class computes entry access and update, row replacement, product, sum, difference, row/column means and sums, Frobenius norm, elementwise and row/column division and equality as defined in linear algebra, without reading or writing outside its buffer; so do the vector helpers (difference, dot product, norm, vector times matrix).", "quantifier": "every pair of shapes, matrices and vectors, over any (semi)ring of entries", "why_tests_cant": "A statement about all shapes and entries; index arithmetic errors show only for particular shapes (non-square, single row).", "anchors": ["libkcommon/dense_matrix.hpp", "libkcommon/linalg.hpp: vdiff, frobenius_norm, dot"]}
{"id": "C68", "title": "Non-conforming matrix operands are reported", "statement": "An arithmetic operation of the dense matrix class whose operands' shapes do not fit is reported and has no result; subtracting a vector works for every matrix that has a dimension of its length.", "quantifier": "every pair of shapes", "why_tests_cant": "Ranges over all shapes; a wrong product of misshapen operands looks like any other matrix.", "anchors": ["libkcommon/dense_matrix.hpp: operator*, operator-, operator+, operator/="]}
{"id": "C69", "title": "argmax finds the largest entry", "statement": "argmax returns, for every row or column, the first position of its largest entry.", "quantifier": "every matrix and both axes", "why_tests_cant": "Ranges over all matrices; the defect needs a line without a positive entry.", "anchors": ["libkcommon/dense_matrix.hpp: argmax"]}
{"id": "C70", "title": "A settled k-medoids run is locally optimal", "statement": "If no row changed cluster in the last iteration of a k-medoids run, every row is in the cluster of its nearest medoid, and no member of a cluster that was sampled in that iteration (drawn at most the requested rate, but at least 0.2) would have a smaller summed distance to the cluster than its medoid; with rate 1 no member at all.", "quantifier": "every data set, symmetric distance, start, sampling outcome, thread count and interleaving", "why_tests_cant": "Ranges over all runs, draws and schedules.", "anchors": ["libman/medoid.cpp: medoid_step", "libman/medoid_coordinator.cpp: constructor, run, choose_global_medoids"]}
{"id": "C71", "title": "X-means ends safely and loses no row", "statement": "Whatever the Bayesian criterion decides, an x-means run ends normally after at most 1.5 kmax rounds: no assertion fails, no memory outside the buffers is touched, no cluster is left active, every row is in a cluster below the capacity, and the reported sizes add up to the number of rows and count the assignments.", "quantifier": "every data set, metric, number of threads, interleaving, pair of first centroids and sequence of decisions", "why_tests_cant": "Ranges over all histories of accepted and rejected splits; id exhaustion needs a rare history.", "anchors": ["libman/xmeans_coordinator.cpp: run, partition_decision", "libman/xmeans.cpp: partition_mean, H_EM_step", "libman/hclust_coordinator.cpp: init_splits"]}
{"id": "C72", "title": "The centroid recorded for a rejected split is the cluster's mean", "statement": "When x-means or g-means rejects the split of a partition, the centroid it reports for that cluster is the mean of the cluster's rows.", "quantifier": "every data set, schedule and sequence of decisions", "why_tests_cant": "Depends on the history of cluster numbers; an accumulating mean shows only when a number is used again.", "anchors": ["libman/xmeans_coordinator.cpp: compute_partition_means, partition_decision", "libman/gmeans_coordinator.cpp: partition_decision", "libkcommon/clusters.cpp: sparse_clusters"]}
{"id": "C73", "title": "G-means stays inside its buffers", "statement": "Whatever the Anderson-Darling test decides, a g-means run touches no memory outside its buffers, fails no assertion, throws nothing and loses no row.", "quantifier": "every data set, number of threads, interleaving, pair of first centroids and sequence of decisions", "why_tests_cant": "Ranges over all histories of accepted and rejected splits; the out-of-range read needs a cluster number above the capacity, which takes at least five rounds.", "anchors": ["libman/gmeans_coordinator.cpp: run, partition_decision", "libman/gmeans.cpp: H_split_step", "libman/xmeans.cpp: H_EM_step"]}
{"id": "C74", "title": "A written result file holds the result", "statement": "Writing a clustering result to disk touches no memory outside it, and the file determines the numbers of clusters, iterations, rows and columns, the sizes, the assignments and the centroids.", "quantifier": "every result object a run can return", "why_tests_cant": "Ranges over all results; a separator error or lost digit shows only for particular values.", "anchors": ["libkcommon/types.cpp: cluster_t::write, cluster_t constructors"]}
{"id": "C75", "title": "Results and vectors compare equal exactly when they are equal", "statement": "Comparing two clustering results, vectors or arrays reports equality exactly if all their elements are the same, without reading outside them.", "quantifier": "every pair of results, vectors or arrays, also of different sizes", "why_tests_cant": "Ranges over all pairs; equal-looking prefixes are rarely tested.", "anchors": ["libkcommon/types.cpp: cluster_t::operator==", "libkcommon/util.hpp: v_eq, eq_all, v_eq_const"]}
{"id": "C76", "title": "File readers deliver the matrix", "statement": "The binary and text matrix readers deliver every row of a file once, in order, count the rows, can be repositioned, and write only inside the caller's vector.", "quantifier": "every file, vector size and sequence of reads", "why_tests_cant": "Ranges over all files, including ragged ones, and all sequences of operations.", "anchors": ["libkcommon/io.hpp: text_reader, bin_rm_reader"]}
{"id": "C77", "title": "Repeated runs give the same answer in machine arithmetic", "statement": "Two runs of any of the algorithms on the same data, with the same parameters, number of threads (and processes) and random draws, return the same result bit for bit, or both fail, however the threads are scheduled.", "quantifier": "every algorithm, input, parameter choice and pair of thread interleavings, for any arithmetic (rounding, overflow, NaN)", "why_tests_cant": "Ranges over all pairs of interleavings; floating-point addition is not associative, so a schedule-dependent order of additions would rarely show in a test.", "anchors": ["README.md", "libman/kmeans_coordinator.cpp: update_clusters", "libman/kmeans_task_coordinator.cpp", "libman/kmeans_thread.cpp: EM_step", "libauto/kmeans.cpp", "libdist/dist_coordinator.cpp"]}
{"id": "C78", "title": "Centroids are accurate in floating point", "statement": "With rounded arithmetic the centroid that unpruned k-means computes for a non-empty cluster differs from the true mean of the cluster's rows by at most ((1+u)^(L+T+1)-1) times the mean of their absolute values, where T is the number of threads, L the most rows a thread has and u the unit roundoff; an empty cluster's centroid is zero, a single-member cluster's centroid is that row.", "quantifier": "every data set without overflow, start, thread count, interleaving and number of iterations; any arithmetic satisfying the standard model of rounding", "why_tests_cant": "Rounding errors depend on the data and on the order of additions; a test compares with a tolerance chosen for its own data.", "anchors": ["libkcommon/clusters.cpp: peq, finalize", "libkcommon/clusters.hpp: add_member", "libman/kmeans_coordinator.cpp: update_clusters"]}
{"id": "C79", "title": "X-means keeps a split by the Bayesian information criterion", "statement": "X-means takes a tentative split of a partition back exactly if the Bayesian information criterion of leaving it whole exceeds that of splitting it.", "quantifier": "every partition of at least three rows with two non-empty sides, all distances of its rows to the partition mean and to the side's centroid, every number of columns", "why_tests_cant": "A wrong term in a likelihood formula changes decisions only for some data; a test on a few data sets does not show which formula is computed.", "anchors": ["libman/xmeans_coordinator.cpp: compute_bic_scores, bic", "libman/xmeans_coordinator.hpp: split_score_t"]}
{"id": "C80", "title": "The normality statistic is that of Anderson and Darling", "statement": "The statistic computed for a sample is the Anderson-Darling statistic with estimated mean and variance; it exists exactly if the sample has two different numbers, and it does not depend on their order, location or unit and is never negative.", "quantifier": "every sample of real numbers and every distribution function with values strictly between 0 and 1", "why_tests_cant": "Ranges over all samples; off-by-one errors in the order statistics change the value only slightly.", "anchors": ["libkcommon/AndersonDarling.hpp: compute_statistic", "libkcommon/linalg.hpp: scale"]}
{"id": "C81", "title": "G-means takes back the splits whose projections look normal", "statement": "G-means takes a split back exactly if the projections of the partition's rows pass the Anderson-Darling test for normality at the chosen level; otherwise it keeps it, and it never aborts.", "quantifier": "every state of a run, every set of projections, every strictness level", "why_tests_cant": "Whether the wrong sample size is used shows only if critical values straddle the statistic; tests check the final number of clusters at most.", "anchors": ["libman/gmeans_coordinator.cpp: partition_decision, compute_ad_stats, assemble_ad_vecs", "libkcommon/AndersonDarling.hpp"]}
{"id": "C82", "title": "A k-means call does what its options say", "statement": "A call with an unknown name for the initialisation or the metric throws; every other call on a matrix in a file or an array returns the result of Lloyd's algorithm with the named metric from the centroids that the named initialisation promises (given centres with 'none' only). knori -P does the same with the files it is given and refuses files of the wrong size.", "quantifier": "every matrix, option names, given centres, thread count, interleaving of the workers and stream of the random engine", "why_tests_cant": "Ranges over all data, schedules and random streams at once, and over all option strings; tests fix one of each.", "anchors": ["libman/kmeans_coordinator.hpp: create", "libman/kmeans_coordinator.cpp: kmeans_coordinator, run", "libman/coordinator.cpp: run_init", "libkcommon/util.cpp: get_init_type, get_dist_type", "exec/knori.cpp: main"]}
{"id": "C83", "title": "A Gaussian mixture fit returns responsibilities and estimated parameters", "statement": "soft_run with a documented initialisation returns; if an iteration was allowed, means, covariances and weights are those estimated from the data, and the returned responsibilities are, for every row, non-negative numbers that sum to one, whatever the number of threads and their interleaving.", "quantifier": "every matrix, number of components, thread count, interleaving, stream of the random engine and arithmetic that follows the IEEE rules for special values", "why_tests_cant": "Ranges over all data, schedules and arithmetic; a test sees that a result comes back, and NaNs in one build or machine only.", "anchors": ["libman/gmm.cpp: Estep, Mstep", "libman/gmm_coordinator.cpp: soft_run, update_clusters, random_prob_fill, run_init", "libkcommon/types.cpp: gmm_t"]}
{"id": "C84", "title": "A pruned k-means call returns what the unpruned one returns", "statement": "The default (pruned) call with known option names returns, like the unpruned call with the same options, the result of Lloyd's algorithm with the named metric from the centroids of the named initialisation, with every row in a cluster, true sizes and means as centroids; knori without -P does the same with the files it is given.", "quantifier": "every matrix, option names, number of clusters, given centres, thread count, interleaving of the workers and stream of the random engine", "why_tests_cant": "Pruning errors show only for data where a bound fails; tests compare a few data sets, which usually meet the bounds.", "anchors": ["libman/kmeans_task_coordinator.hpp: create", "libman/kmeans_task_coordinator.cpp: kmeans_task_coordinator, run, update_clusters, tally_assignment_counts", "libman/kmeans_task_thread.cpp: EM_step", "libkcommon/dist_matrix.cpp: dist_matrix", "exec/knori.cpp: main"]}
{"id": "C85", "title": "A distributed k-means job returns Lloyd's result for the whole matrix", "statement": "dist_coordinator::run and knord -P: unknown option names throw, a data file of the wrong size or a missing file of centres is refused; every other job of at most as many processes as rows returns, on the root, the result of Lloyd's algorithm on all rows with the named metric from the centroids that the named initialisation promises (the last of the options -t and -C decides). Number of processes, threads and interleaving do not matter, and the shared-memory call with the same options returns the same clusters.", "quantifier": "every matrix, option list, number of processes and threads, interleaving of the workers of every process and stream of the random engine", "why_tests_cant": "Ranges over all process counts, schedules, data and random streams at once; a test runs one MPI world on one data set.", "anchors": ["libdist/dist_coordinator.hpp: create", "libdist/dist_coordinator.cpp: dist_coordinator, init, random_partition_init, kmeanspp_init, forgy_init, run, pp_aggregate", "libkcommon/util.cpp: get_init_type, get_dist_type", "exec/knord.cpp: main"]}
{"id": "C86", "title": "A pruned distributed k-means job returns what the unpruned one returns", "statement": "The default (pruned) distributed job, and knord without -P, with known option names returns on the root, like the unpruned job with the same options, the result of Lloyd's algorithm on all rows with the named metric from the centroids of the named initialisation, with every row in a cluster and true sizes, whatever the number of processes.", "quantifier": "every matrix, option list, number of clusters, number of processes and threads, interleaving of the workers of every process and stream of the random engine", "why_tests_cant": "Pruning errors show only for data where a bound fails; a test runs one MPI world on a few data sets.", "anchors": ["libdist/dist_task_coordinator.hpp: create", "libdist/dist_task_coordinator.cpp: dist_task_coordinator, run, kmeanspp_init, pp_aggregate", "libman/kmeans_task_thread.cpp: EM_step", "libkcommon/dist_matrix.cpp: dist_matrix", "exec/knord.cpp: main"]}
{"id": "C87", "title": "A scaled k-means call clusters the rows scaled to the unit interval", "statement": "A scaled k-means call, and the program skmeans, throws for unknown option names and a data file of the wrong size. Otherwise it returns the result of Lloyd's algorithm with the named metric on the rows scaled column by column to [0, 1], from the centroids that the named initialisation gives for the scaled data; given centres are meant in the units of the data.", "quantifier": "every matrix, option list, number of clusters and threads, interleaving of the workers in every phase and stream of the random engine", "why_tests_cant": "The scaled values, hence the result, depend on minima and maxima over all threads' rows; a test tries a few data sets, and none in which a row is minimal in every column.", "anchors": ["libman/skmeans_coordinator.hpp: create", "libman/skmeans_coordinator.cpp: skmeans_coordinator, preprocess_data, run_init, run", "libman/skmeans.cpp: preprocess_data_step1, preprocess_data_step2", "exec/skmeans.cpp: main"]}
{"id": "C88", "title": "A fuzzy c-means call returns what fuzzy c-means gives from the promised centres", "statement": "A fuzzy c-means call, and the program fcm, throws for unknown option names, for the initialisations random and kmeanspp, which it does not support, and for a data file of the wrong size. Otherwise it starts at the given centres or at rows drawn at random, alternates memberships and weighted means until the centres move by less than the tolerance or the iterations are used up, and returns the number of iterations, the last centres, every row's cluster of largest membership and the true sizes. With the default tolerance of the library it never stops early.", "quantifier": "every matrix, option list, fuzziness index, number of clusters and threads, interleaving of the workers in every phase and stream of the random engine", "why_tests_cant": "Whole calls combine reading, seeding, two parallel phases and the stopping rule for all data; a test checks a few data sets.", "anchors": ["libman/fcm_coordinator.hpp: create", "libman/fcm_coordinator.cpp: fcm_coordinator, forgy_init, run", "libman/fcm.cpp: Estep, Mstep", "exec/fcm.cpp: main"]}
{"id": "C89", "title": "A k-medoids call returns what k-medoids gives from the promised medoids", "statement": "A k-medoids call, and the program medoids, throws for unknown option names and a data file of the wrong size. Otherwise it starts at the given centres or where the named initialisation says, assigns every row to the first of the nearest medoids in the requested metric, and in every iteration replaces a medoid exactly if some sampled row of its cluster has a smaller sum of distances to the cluster, by a best such row; it stops when no row, or at most the tolerated fraction, changed cluster or the iterations are used up, and returns the number of iterations, the last medoids and assignment and the true sizes.", "quantifier": "every matrix, option list, number of clusters and threads, interleaving of the workers in every phase, stream of the random engine and of the sampling generators", "why_tests_cant": "Whole calls combine option handling, reading, sampling and two parallel phases for all data; the tests run one data set with one configuration.", "anchors": ["libman/medoid_coordinator.hpp: create", "libman/medoid_coordinator.cpp: medoid_coordinator, run_init, run, choose_global_medoids", "libman/medoid.cpp: EM_step, medoid_step", "exec/medoids.cpp: main"]}
{"id": "C90", "title": "A hierarchical clustering call accounts for every row and returns the means of its clusters", "statement": "A call of hierarchical clustering, and the program hmeans, throws for unknown option names and a data file of the wrong size. Otherwise it starts at the two given centres or at two rows drawn at random, ends after at most 1.5 kmax rounds, and returns one cluster per row, sizes that are the numbers of rows of the clusters, as many centroids as clusters, and centroids that are the means of the rows of their clusters.", "quantifier": "every matrix, option list, kmax, number of threads, interleaving of the workers in every iteration of every round, stream of the random engine, and iteration order of the map of centroids", "why_tests_cant": "Whole calls combine option handling, reading, splitting and compaction for all data and schedules; the tests run one data set with one configuration.", "anchors": ["libman/hclust_coordinator.hpp: create", "libman/hclust_coordinator.cpp: hclust_coordinator, run_hinit, verify_consistency, run", "exec/hmeans.cpp: main"]}
{"id": "C91", "title": "x-means and g-means calls account for every row", "statement": "A call of x-means or g-means, and the programs xmeans and gmeans, throws for unknown option names and a data file of the wrong size. Otherwise it ends normally and returns one cluster per row, sizes that are the numbers of rows of the clusters, and as many centroids as clusters.", "quantifier": "every matrix, option list, kmax, number of threads, interleaving of the workers, stream of the random engine, recorded distances, order in which rejected splits are treated, and iteration order of the map of centroids", "why_tests_cant": "Whole calls combine option handling, reading, splitting, statistical decisions and compaction for all data and schedules; the tests run one data set with one configuration.", "anchors": ["libman/xmeans_coordinator.hpp: create", "libman/xmeans_coordinator.cpp: run", "libman/gmeans_coordinator.hpp: create", "libman/gmeans_coordinator.cpp: run", "exec/xmeans.cpp: main", "exec/gmeans.cpp: main"]}
{"id": "C92", "title": "A call of the OpenMP variant returns what Lloyd's algorithm promises", "statement": "knori -O, and the functions compute_kmeans and compute_min_kmeans behind it, refuse a number of clusters below 2 or above the number of rows, a metric other than eucl and cos, an unknown initialisation, none without a file of centres, and a data file of the wrong size. Otherwise they return the iteration number, assignment, sizes and centroids of Lloyd's algorithm with the given limit on the iterations, from the centroids that the named initialisation promises.", "quantifier": "every matrix, option list, number of threads, distribution of the rows over the OpenMP threads, interleaving in every pass and iteration, and stream of the random engine", "why_tests_cant": "Whole calls combine option handling, reading, initialisation and all iterations for all data, thread counts and schedules; the tests run one data set with one configuration.", "anchors": ["exec/knori.cpp: main", "libauto/kmeans.cpp: compute_kmeans", "libauto/min-tri-kmeans.cpp: compute_min_kmeans"]}
{"id": "C93", "title": "Hierarchical clustering returns clusters that arise by bisecting with two-means", "statement": "With at least one iteration and at least 2 as smallest cluster size, every cluster that hierarchical clustering returns arises from all rows by bisecting: all rows are split by two-means from the two first centroids, and a side of at least min_clust_size rows may be split again by two-means from its two lowest-numbered rows. Every two-means ends at the first iteration in which no row, or at most the tolerated fraction of the rows being split, changes side, or after max_iters iterations; several two-means that run at the same time do not influence one another.", "quantifier": "every data set, metric, first two centroids, tolerance, limit, smallest size, kmax, number of threads, interleaving in every iteration of every round, and iteration order of the centroid map", "why_tests_cant": "The clusters are split in rounds in which all splits share one pass over the rows, the threads and the assignment array; that they do not disturb one another is a statement about all data and all schedules, and no test compares a run with a reference bisection.", "anchors": ["libman/hclust_coordinator.cpp: run, init_splits, inner_init, update_clusters", "libman/hclust.cpp: H_EM_step", "libman/hclust_coordinator.hpp: create"]}
{"id": "C94", "title": "Hierarchical clustering does not stop before the permitted number of clusters while a cluster can be split", "statement": "With at least one iteration and at least 2 as smallest cluster size, hierarchical clustering leaves a cluster of min_clust_size or more rows unsplit only if the number of clusters has reached the largest power of two that does not exceed kmax.", "quantifier": "every data set, metric, first two centroids, tolerance, limit, smallest size, kmax, number of threads, interleaving in every iteration of every round, and iteration order of the centroid map", "why_tests_cant": "The limit is tested with a counter that is raised and lowered while clusters are split and that does not count identifier 0; how far it is from the number of clusters depends on the whole history of splits.", "anchors": ["libman/hclust_coordinator.cpp: run, inner_init, init_splits, activate", "libman/hclust_coordinator.hpp: at_cluster_cap", "libkcommon/util.cpp: get_hclust_floor"]}
{"id": "C95", "title": "What a whole mini-batch call delivers", "statement": "mb_knori refuses initialisation 'none' without a file of centres, a data file of the wrong size, unknown names and a single cluster; every other call returns. Its centroids are those of mini-batch k-means from the start that the named initialisation promises: in every iteration the sampled rows go to a nearest centroid, the others stay, and every centroid is moved towards its sampled rows in the order of their numbers with one over the size of its cluster as the rate. It stops after the first iteration that moves the centroids by less than the tolerance, or after max_iters. Every row is returned with a nearest centroid, with the sizes of this partition, and every centroid lies in the convex hull of its start and the rows.", "quantifier": "every matrix, number of clusters, initialisation, metric, batch size, tolerance, iteration limit, number of threads, interleaving in every phase, sample and draw of the engine", "why_tests_cant": "The order in which a centroid is moved towards the sampled rows must not depend on the threads although they collect the rows concurrently; the samples and the draws are random; the claim is about the whole history of a run.", "anchors": ["exec/mb_knori.cpp: main", "libman/kmeans_task_coordinator.cpp: mb_run, mb_iteration_end, run_init", "libman/kmeans_task_thread.cpp: mb_EM_step, mb_finalize_centroids, EM_step", "libkcommon/clusters.cpp: scale_centroid", "libkcommon/linalg.hpp: vdiff, frobenius_norm"]}
{"id": "C96", "title": "What a whole multi-start call delivers", "statement": "kmeanspp refuses a data file of the wrong size, an unknown metric and a single cluster. Every other call with s starts (none counts as one) draws s sets of centres by k-means++, each with the random engine where the start before left it, and reports the first start of the lowest energy, counted from one, its energy (the sum over the rows of the distance to the nearest centre), its centres, a nearest centre for every row, and the sizes of the clusters. The reported start, energy and centres do not depend on the number of threads or the schedule.", "quantifier": "every matrix, number of clusters, metric, number of starts, number of threads, interleaving in every start, and draw of the engine", "why_tests_cant": "The starts share the engine, the distances and the assignment, so that start i depends on the history of all starts before it; the draws are random, and the distances of a start are computed concurrently.", "anchors": ["exec/kmeanspp.cpp: main", "binding/kmeanspp.hpp: kmeansPP", "libman/kmeans_task_coordinator.cpp: kmeanspp_init, run, reinit, tally_assignment_counts, compute_cluster_energy, dump_state"]}
{"id": "C97", "title": "k-means on doubles is Lloyd's algorithm up to rounding", "statement": "When operations round as IEEE 754 doubles do, and with fewer than 2^32 rows whose entries, like those of the start, are at most 2^400 in size, an unpruned run with the Euclidean, squared Euclidean or taxicab distance never fails an assertion and never produces an infinity or NaN; in every iteration every row goes to a centroid that is nearest up to a relative error of (n+4) 2^-52 in the distances, every centroid is the mean of its members up to a relative error of (N/T + N%T + T + 1) 2^-52, the sizes are exact, and the run stops at the first iteration whose fraction of changed rows is small enough, as computed. If no row changed in the last iteration, every row is with a centroid that is nearly the nearest of those returned.", "quantifier": "every matrix of bounded doubles, start, number of threads, interleaving of every iteration, tolerance and iteration limit; every arithmetic that satisfies the standard model of rounding", "why_tests_cant": "Rounding errors depend on the data and build up over the iterations; a test compares with a few reference results to a tolerance, and cannot show that no input makes the error larger or makes a number overflow in a later iteration.", "anchors": ["libman/kmeans_coordinator.cpp: run, update_clusters", "libman/kmeans_thread.cpp: EM_step", "libkcommon/util.hpp: eucl_dist, sqeucl_dist, taxi_dist", "libkcommon/clusters.cpp: finalize, peq, add_member"]}
{"id": "C98", "title": "On separated data rounding does not change the clustering", "statement": "When operations round as IEEE 754 doubles do and, along the exact Lloyd iterations, every row is closer to its centroid than to any other by more than the rounding error, an unpruned run with the Euclidean or taxicab distance on any number of threads assigns every row exactly as exact Lloyd does in every iteration, returns the exact sizes, stops after the number of iterations given by the exact numbers of changed rows, and returns centroids within (N/T + N%T + T + 1) 2^-52 X + 2^-1075 of the exact ones, X bounding the rows; the error does not grow with the number of iterations.", "quantifier": "every matrix of bounded doubles and start with separated exact iterations, number of threads, interleaving of every iteration, tolerance and iteration limit", "why_tests_cant": "Errors feed back into the next iteration's assignments; tests compare final centroids to a tolerance on a few data sets and cannot show that the error stays bounded over any number of iterations, nor that assignments agree for every thread count.", "anchors": ["libman/kmeans_coordinator.cpp: run, update_clusters", "libman/kmeans_thread.cpp: EM_step", "libkcommon/util.hpp: eucl_dist, taxi_dist", "libkcommon/clusters.cpp: finalize, peq, add_member"]}
{"id": "C99", "title": "The programs do what their command lines say", "statement": "For every program that parses its command line with the vendored parser, a command line made of options in any of the accepted forms (-k 8, -PTk 8, --nclust 8, --nclust=8, flags singly or joined) and positional words in any order, with or without -- and more words at the end, is accepted; each option has the last argument it was given, the positional words go in order to the positional parameters not given by name, everything else keeps its default; mistakes (unknown options, missing arguments, arguments of flags, non-numbers) are refused. Each program then makes the one library call its options describe, with exactly these parameters (after loading a file of starting centers, if named). knori runs the variant chosen by -O and -P and delivers, for a file that stores the matrix, the result of Lloyd's algorithm (or of its pruned variant) in the named directory.", "quantifier": "every list of words of that form, file contents, environment, random engine and schedule", "why_tests_cant": "Command lines are unbounded lists of words in several interchangeable forms; tests run a handful of them.", "anchors": ["libkcommon/cxxopts/cxxopts.hpp: Options::parse, consume_positional, parse_option, integer_parser, option_matcher", "exec/knori.cpp: main", "exec/mb_knori.cpp, exec/fcm.cpp, exec/skmeans.cpp, exec/hmeans.cpp, exec/xmeans.cpp, exec/gmeans.cpp, exec/medoids.cpp, exec/kmeanspp.cpp, exec/gmm.cpp: option tables and the code before the library call"]}
{"id": "C100", "title": "The distributed program does what its command line says", "statement": "knord takes a data file, the numbers of rows, columns and clusters, and then options in any order, with the argument in the same word or the next one and -P joined to another letter or alone; words that are no options and everything after -- do not count. Each option has the last argument it was given, everything else its default, and the program runs the job with exactly these parameters: with -P (and without -P, in the cases of C86) it delivers, for a file that stores the matrix and any number of processes and threads, the result of Lloyd's algorithm in the named directory. Fewer than four words, unknown letters, long options and missing arguments end the program with its usage; files that do not exist are refused.", "quantifier": "every command line of that form, file contents, environment, number of processes and threads, random engine and schedule", "why_tests_cant": "Command lines are unbounded lists of words in several interchangeable forms; tests run a handful of them, and none through MPI.", "anchors": ["exec/knord.cpp: main", "libdist/dist_coordinator.cpp, libdist/dist_task_coordinator.cpp: create, run", "libkcommon/util.cpp: filesize, is_file_exist"]}
{"id": "C101", "title": "A distributed job on doubles is Lloyd's algorithm up to rounding, in whatever order MPI adds", "statement": "Without pruning, a distributed job whose numbers are IEEE doubles with coordinates up to 2^400 returns for every number of ranks and threads, every interleaving and every order in which MPI_Allreduce adds the numbers of the ranks (a different one in every reduction if it likes). Every iteration puts every row into a cluster that is nearest up to the rounding of two distances, every new centroid is the mean of its members up to W+np roundings, the counts are exact, all ranks end with the same centroids, iteration stops by the tolerance or at the limit. If the exact iterations of Lloyd's algorithm are separated by more than these errors, the job returns exactly the clusters of Lloyd's algorithm. With exact arithmetic the order of the reductions never matters, also with pruning; with rounding it can change the result.", "quantifier": "every data set, number of ranks and threads, schedule, reduction tree, tolerance and iteration limit; any arithmetic that rounds like IEEE 754 double", "why_tests_cant": "The order in which MPI adds is up to the implementation and the machine; a test sees one order. Rounding errors have to be bounded for all data.", "anchors": ["libdist/dist_coordinator.cpp: run", "libdist/dist_task_coordinator.cpp: run", "libdist/mpi.hpp: reduce_double, mpi", "libkcommon/clusters.cpp: finalize, operator+=", "libkcommon/kcommon.hpp: eucl_dist, taxi_dist"]}
{"id": "C102", "title": "Pruning does not spoil a distributed job on doubles: errors grow at most linearly, and on separated data nothing changes", "statement": "With pruning, a distributed job of at least two clusters on IEEE doubles with the Euclidean distance returns for every number of ranks and threads, every interleaving and every order in which MPI adds. Coordinates may be up to X (2^-400 <= X <= 2^368), and the iteration limit times the number of additions for one sum may be up to 2^52. Although bounds are carried over from iteration to iteration in rounded arithmetic and centroids are corrected by the moved rows instead of added up again, every iteration puts every row into a cluster that is nearest up to (limit+3)(n+8) 2^-52 times the diameter, and every centroid is the mean of its members up to limit (W+np+7) 2^-52 g X; counts are exact, all ranks hold the same centroids, the run stops by the tolerance or at the limit. If the exact iterations of Lloyd's algorithm are separated by more than these errors, the job makes as many iterations as Lloyd's algorithm and returns its clusters, and so it agrees with the job without pruning on any number of ranks.", "quantifier": "every data set in the range, number of ranks and threads, schedule, reduction tree, tolerance and iteration limit; any arithmetic that rounds like IEEE 754 double", "why_tests_cant": "A bound that rounding makes too small silently skips the nearest centroid; a test on some data cannot show that the bounds never drift too far, and the error of a running sum grows with the history.", "anchors": ["libdist/dist_task_coordinator.cpp: run, pp_aggregate", "libman/task_thread / task_queue", "libkcommon/dist_matrix.cpp: compute_dist", "libkcommon/clusters.cpp: unfinalize, finalize, operator+=, swap_membership", "libkcommon/kcommon.hpp: eucl_dist"]}
{"id": "C103", "title": "The container of cluster sums keeps every cluster's numbers apart, whatever calls are made", "statement": "A container of k clusters over n columns (k*n below 2^32) stores all means in one vector, yet after any history of calls (add, remove and swap members from a pointer or an iterator, set means and counts, finalize and unfinalize one or all, +=, peq, scaling, clear) the sum, the count and the completion flag of every cluster are exactly what the calls naming that cluster made of it, in any arithmetic, and no call reads or writes outside the vectors. Two containers compare equal exactly when all means and counts agree. A growing container has room for every cluster a call named, shows zero for clusters without calls and throws for those it has no room for. An assignment makes the left operand a copy of the right one.", "quantifier": "every number of clusters and columns whose product is below 2^32, every history of calls, every arithmetic on the stored numbers", "why_tests_cant": "Index arithmetic on a flat vector goes wrong only for particular shapes and sequences; a test covers a few of them, and undefined behaviour outside the vector need not show up at all.", "anchors": ["libkcommon/clusters.hpp: clusters, sparse_clusters", "libkcommon/clusters.cpp"]}
{"id": "C104", "title": "The table of pairwise distances is the symmetric distance matrix of the rows, whatever the threads do", "statement": "For every data set of at least two rows, dist_matrix::compute_pairwise_dist fills the table so that pw_get(i, j) is the distance of rows i and j under the chosen metric in either order and 0 for i = j, and get agrees with it off the diagonal, for any team of threads and any interleaving of their writes, with no assertion failing and no access outside a buffer. get_min_dist(i) is the least entry of row i, and fails its assertion exactly when none is below DBL_MAX. Every metric of dist_t can be used.", "quantifier": "every number of rows and columns, all data, every metric, every team size and interleaving, every earlier use of the table", "why_tests_cant": "The loop nest is run by every thread at once, all writing the same cells; the unit test has one 16-by-4 data set, one metric and whatever interleaving occurs.", "anchors": ["libkcommon/dist_matrix.cpp: compute_pairwise_dist, get_min_dist, get, set", "libkcommon/dist_matrix.hpp: pw_get"]}
{"id": "C105", "title": "The statistics objects show what was reported to them", "statement": "prune_stats: after any history of reports, merges of other objects and finalize calls, the getters show what was reported since the last finalize, get_stats shows for each reason its percentage of all nrow*nclust*iterations distance computations and the percentage of all reasons together, all between 0 and 100, the last the sum of the others; an iteration that reports more than nrow*nclust fails the assertion. activation_counter: the numbers per iteration are the numbers of reports, whichever threads made them. active_counter: the flag of a row in an iteration says that the row was active in it and in the one before; write_raw writes the flags of the first rows, write_consolidated every distinct pattern in increasing order with the number of rows that have it.", "quantifier": "every size of the problem, every history of calls, every order of reports, every number of rows to write", "why_tests_cant": "The numbers depend on the whole history of calls; a test fixes one history. There is no test of these classes.", "anchors": ["libkcommon/prune_stats.cpp: prune_stats, activation_counter, active_counter", "libkcommon/prune_stats.hpp"]}
{"id": "C106", "title": "Members, sizes and means of the clusters of the hierarchical coordinator", "statement": "forgy_select(cid) returns a row that is a member of cluster cid, or throws if there is none; accumulate_cluster_counts makes the count of every node the number of rows assigned to it; partition_mean stores the mean of every partition in the given map.", "quantifier": "every list of assignments, every cluster id, every row the generator can draw, every number of nodes, every map passed in", "why_tests_cant": "Which row is drawn is random, and the failing case needs a particular assignment together with a particular draw.", "anchors": ["libman/hclust_coordinator.cpp: forgy_select, accumulate_cluster_counts, partition_mean"]}
{"id": "C107", "title": "Comparing results and filling a result object", "statement": "check_collection_equal says yes exactly if the two collections have the same length and every pair of entries agrees within the tolerance; two gmm_t compare equal exactly if they hold the same; after set_params and set_computed a cluster_t holds exactly what was passed.", "quantifier": "every two collections, every tolerance, stopping at the first mismatch or not; every two mixture results; every buffers", "why_tests_cant": "A test compares two given collections; the release tests themselves rely on this comparison.", "anchors": ["libkcommon/util.hpp: check_collection_equal", "libkcommon/types.cpp: gmm_t::operator==, cluster_t::set_computed", "libkcommon/types.hpp: set_params"]}
{"id": "C108", "title": "Sizes of the cluster tree", "statement": "get_hclust_floor(k) is the largest power of two that is at most k, get_hclust_ceil(k) the smallest that is at least k, get_max_hnodes(v) the number of nodes of the complete binary tree with get_hclust_floor(v) leaves.", "quantifier": "every unsigned k and v, every implementation of std::log2 that is off by at most 2^-34 and exact at powers of two", "why_tests_cant": "The functions go through a floating-point logarithm; a test checks eight values, the property is about four thousand million, and about every accurate library function.", "anchors": ["libkcommon/util.cpp: get_hclust_ceil, get_hclust_floor", "libkcommon/util.hpp: get_max_hnodes"]}
{"id": "C109", "title": "Score of a clustering and projection to the unit sphere", "statement": "get_bic returns twice the sum of the distances plus log(nrow) for each coordinate of each centre, however OpenMP distributes the work; spherical_projection scales every row to length one.", "quantifier": "every vector of distances, every data set, every team of threads, every assignment of iterations to threads, every interleaving of their memory accesses", "why_tests_cant": "The result of a parallel reduction must not depend on the runtime's choices; a test sees one of them.", "anchors": ["libkcommon/util.cpp: get_bic, spherical_projection"]}
{"id": "C110", "title": "A whole k-means call on doubles", "statement": "On IEEE doubles, a k-means call with the Euclidean, squared Euclidean or taxicab metric never fails and returns Lloyd's algorithm up to rounding, from the start its initialisation promises up to rounding: the given centres, rows that the engine drew, means of the engine's random clusters, or rows sampled with the distances to the nearest centre before as weights. A row that already is a centre weighs exactly 0. If the exact iterations from that start are separated, the clusters are exactly those of Lloyd's algorithm. knori -P does the same for a file.", "quantifier": "every rounded arithmetic that obeys IEEE, every matrix and centres with entries up to 2^400, every initialisation, number of threads, interleaving in the initialisation and the iterations, draw of the engine, tolerance and number of iterations", "why_tests_cant": "The seeding compares rounded sums to a rounded threshold and threads race on the partial sums; a test sees one draw, one schedule and one data set and has no exact answer to compare with.", "anchors": ["libman/kmeans_coordinator.cpp: kmeanspp_init, random_partition_init, forgy_init, run_init, run_kmeans", "libman/kmeans_thread.cpp: kmspp_dist", "libkcommon/linalg.hpp: dist_comp_raw", "libman/kmeans_task_coordinator.cpp", "exec/knori.cpp: main"]}
{"id": "C111", "title": "A whole call of the OpenMP variant on doubles", "statement": "On IEEE doubles, a call of the OpenMP variant without pruning (knori -O -P) with the Euclidean metric never fails and returns Lloyd's algorithm up to rounding within its limit of iterations, from the start its initialisation promises up to rounding, whichever thread the runtime gives each row to in each iteration. If the exact iterations from that start are separated, the clusters are exactly those of Lloyd's algorithm.", "quantifier": "every rounded arithmetic that obeys IEEE, every matrix and centres with entries up to 2^400, every initialisation, number of threads, distribution of the rows (a different one in each iteration), interleaving, draw of the engine, tolerance and number of iterations", "why_tests_cant": "The runtime may add up the same rows in another order in every iteration and run; a test sees one order and has no exact answer to compare with.", "anchors": ["libauto/kmeans.cpp: compute_kmeans, EM_step, kmeanspp_init, random_partition_init, forgy_init", "exec/knori.cpp: main"]}
{"id": "C112", "title": "A whole distributed job on doubles", "statement": "On IEEE doubles, a whole unpruned distributed job (knord -P) with the Euclidean, squared Euclidean or Manhattan metric never fails and returns Lloyd's algorithm up to rounding from the start its initialisation promises up to rounding, all ranks agreeing bit for bit, in whatever order each of its reductions adds the contributions of the ranks. If the exact iterations from that start are separated (Euclidean or Manhattan), the clusters are exactly those of Lloyd's algorithm.", "quantifier": "every rounded arithmetic that obeys IEEE, every data file and centres with entries in range, every initialisation, number of ranks and threads, schedule of the threads on each rank, order of each reduction, draw of the engine, tolerance and number of iterations, every order of the options -t and -C", "why_tests_cant": "MPI may add the contributions of the ranks in another order in every reduction; a test sees one order on one machine and has no exact answer to compare with.", "anchors": ["libdist/dist_coordinator.cpp: run, init, random_partition_init, forgy_init, kmeanspp_init, pp_aggregate", "libdist/mpi.hpp: allreduce_double, allreduce_size_t, mpi_allreduce", "exec/knord.cpp: main"]}
{"id": "C113", "title": "A whole pruned distributed job on doubles", "statement": "On IEEE doubles, a whole pruned distributed job (knord without -P) with the Euclidean metric and at least two clusters never fails and returns Lloyd's algorithm, up to errors in the distances and centroids that grow linearly with the number of iterations, from the start its initialisation promises up to rounding, in whatever order each of its reductions adds the contributions of the ranks. If the exact iterations from that start are separated by more than those errors, the clusters, sizes and number of iterations are exactly those of Lloyd's algorithm, and so those of the unpruned job.", "quantifier": "every rounded arithmetic that obeys IEEE, every data file and centres with entries in range, every initialisation, number of ranks and threads, schedule of the threads on each rank, order of each reduction, draw of the engine, tolerance and number of iterations within a budget of 2^52 roundings, every order of the options -t and -C", "why_tests_cant": "Pruning keeps rounded upper bounds and running sums from the initialisation and from one iteration to the next, and the reductions may be made in any order; a test sees one order and a skipped candidate leaves no trace.", "anchors": ["libdist/dist_task_coordinator.cpp: run, init, random_partition_init, forgy_init, kmeanspp_init, pp_aggregate", "libdist/mpi.hpp: allreduce_double, allreduce_size_t, mpi_allreduce", "exec/knord.cpp: main"]}
{"id": "C114", "title": "A whole pruned k-means call in one process on doubles", "statement": "On IEEE doubles, the pruned call in one process (knori without -P, the default) with at least two clusters and the Euclidean, squared Euclidean or taxicab metric never fails. It starts where its initialisation promises, up to rounding. After any number of iterations it returns a partition whose sizes are right and whose centroids are the means of the clusters up to an error that grows linearly with the number of iterations. Under the Euclidean metric it returns Lloyd's algorithm from that start, up to errors in the distances and centroids that grow linearly with the number of iterations; if the exact iterations are separated by more than those errors, it returns exactly Lloyd's clusters, and so those of the unpruned call.", "quantifier": "every rounded arithmetic that obeys IEEE, every data file and centres with entries in range, every initialisation, number of threads, schedule of the threads, draw of the engine, tolerance and number of iterations within a budget of 2^52 roundings", "why_tests_cant": "Pruning keeps rounded upper bounds and running sums from the initialisation and from one iteration to the next; a candidate that is skipped wrongly because of a rounded bound leaves no trace in a test, and which rows it concerns depends on the data, the draws and the schedule.", "anchors": ["libman/kmeans_task_coordinator.cpp: run, kmeanspp_init, random_partition_init, forgy_init, update_clusters", "libman/kmeans_task_thread.cpp: EM_step, kmspp_dist", "exec/knori.cpp: main"]}
{"id": "C115", "title": "A whole mini-batch call on doubles", "statement": "On IEEE doubles, unknown names throw and one cluster fails an assertion; every other mini-batch call (the coordinator's mb_run, and the program mb_knori) with a metric other than the cosine terminates without a fault and returns what mini-batch k-means promises up to rounding: it starts where the initialisation says, in every iteration every sampled row goes to a nearly nearest centroid, the others stay, and every centroid moves towards its sampled rows in order with one over its cluster's size as the rate, with an error of at most 12 2^-52 X per row; a centroid without sampled rows does not move. It stops at the first iteration whose computed move (within a relative error of the true one) is below the tolerance, and never for a tolerance that is not positive. The returned centroids stay within the accumulated error of the hull of their first positions and the rows, every row is with a nearly nearest one, and the sizes are exactly those of this partition. If the exact iterations with the same samples leave no sampled row near a border, the result is the exact one up to rounding, and every row not near a border is with the exact nearest centroid.", "quantifier": "every rounded arithmetic that obeys IEEE, every data file or array and centres with entries in range, every initialisation, batch size, number of threads, schedule of the threads, draws of the workers' generators, tolerance and number of iterations within a budget of 2^52 roundings", "why_tests_cant": "Which rows are sampled depends on the draws and on a rounded fraction, the updates are made one row at a time with a rounded rate, and the assignment of the rows that are not sampled is that of an older iteration; tests compare a few runs, and a lost or repeated update only shifts a centroid a little.", "anchors": ["libman/kmeans_task_coordinator.cpp: mb_run, mb_iteration_end", "libman/kmeans_task_thread.cpp: mb_EM_step, mb_finalize_centroids", "libkcommon/clusters.hpp: scale_centroid", "libkcommon/linalg.hpp: frobenius_norm", "exec/mb_knori.cpp: main"]}
{"id": "C116", "title": "The program gmm fits a mixture and leaves the result in the directory named", "statement": "Unknown names of initialisations or metrics throw, no component fails an assertion, and the program refuses none without a file of means and a data file of the wrong size. Every other command line of gmm, and every other call of the library, fits a Gaussian mixture to the rows of the matrix with the means, initialisation, number of iterations and tolerance that it names; the program writes the fit to the directory named with -o.", "quantifier": "every command line, file contents, numbers of rows, columns, components and threads, random engine, schedule and arithmetic", "why_tests_cant": "The options can be combined without limit, and that a run ends early is seen only when its output is compared with a fit.", "anchors": ["exec/gmm.cpp: main", "libman/gmm_coordinator.cpp: soft_run, run_init", "libman/gmm_coordinator.hpp: create", "libkcommon/util.cpp: get_init_type, get_dist_type"]}
{"id": "C117", "title": "A whole scaled k-means call on doubles scales the columns and clusters the scaled rows, up to rounding", "statement": "On IEEE doubles, with the Euclidean, squared Euclidean or taxicab metric and rows of absolute value at most 2^1022 without a constant column, a scaled k-means call and the program skmeans never fail: every column is stretched from its smallest and largest entry to 0 and 1 with a relative error of 2^-51, the smallest entries becoming exactly 0 and none becoming negative, and the result is that of Lloyd's algorithm on the scaled rows up to rounding, from the start that the initialisation promises on them.", "quantifier": "every arithmetic that rounds to a nearest double, every matrix, number of threads, interleaving of the two scaling phases and of the iterations, initialisation, draws of the engine, tolerance and number of iterations", "why_tests_cant": "Errors of rounding depend on the numbers, and columns whose largest entry is nearly zero or negative, or huge, are never tried.", "anchors": ["libman/skmeans.cpp: feature_bounds_reduction, feature_normalize", "libman/skmeans_coordinator.cpp: bounds_reduction, preprocess_data, run", "exec/skmeans.cpp: main"]}
{"id": "C118", "title": "A whole k-medoids call on doubles returns what k-medoids gives, up to rounding", "statement": "On IEEE doubles, a k-medoids call, and the program medoids, on rows of absolute value at most 2^402 never fails with a named initialisation and metric: it starts at the promised medoids, and in every iteration each medoid is kept or replaced by a sampled row of its cluster whose sum of distances to the cluster is smaller, and no sampled row has a smaller one than the new medoid, both up to a relative error of (n+2N+6) 2^-52; every row is then assigned to a medoid that is nearest up to a relative error of (n+4) 2^-52. The medoids are always exact rows of the data, the sizes are true, and the sum of all distances never grows by more than these errors.", "quantifier": "every arithmetic that rounds to a nearest double, every matrix, number of clusters and threads, interleaving of the workers in every phase, draws of the engine and of the sampling generators, sampling rate, tolerance and number of iterations", "why_tests_cant": "Rounding errors in sums of distances depend on the numbers and on how the rows are split over threads; a test has a few of each.", "anchors": ["libman/medoid.cpp: EM_step, medoid_step", "libman/medoid_coordinator.cpp: run_init, run, choose_global_medoids", "exec/medoids.cpp: main"]}
{"id": "C119", "title": "A whole fuzzy c-means call on doubles returns what fuzzy c-means gives, up to rounding", "statement": "On IEEE doubles, a fuzzy c-means call, and the program fcm, never fails, divides by zero or overflows: it starts at the centres that the initialisation promises, and in every iteration the memberships of a row are in the proportion of the inverse distances to the power 1/(m-1) up to a relative error of (4k+33) 2^-52 and the distances' own error, and every new centre is the mean of the rows weighted with the m-th powers of the memberships up to a relative error of (6N+14) 2^-52 of the weighted mean of the absolute values. The iterations stop as documented, at the movement of the centres (the Frobenius norm) computed up to a relative error of (kn+4) 2^-52, every row is put in the first cluster in which its computed membership is largest, and the sizes are true.", "quantifier": "every arithmetic that rounds to a nearest double, every std::pow that is right up to a relative error of 2^-51, every matrix, number of clusters, columns and threads, exponent, interleaving of the workers in both phases of every iteration, draws of the engine, tolerance and number of iterations", "why_tests_cant": "The weights are quotients of powers of quotients, and their sums depend on how the rows are split over threads; whether they can vanish or overflow depends on all distances at once.", "anchors": ["libman/fcm.cpp: Estep, Mstep", "libman/fcm_coordinator.cpp: update_contribution_matrix, update_centers, run, run_init", "libkcommon/dense_matrix.hpp: sum, operator/=, pow, argmax", "exec/fcm.cpp: main"]}
{"id": "C120", "title": "A whole multi-start k-means++ call on doubles returns the best of its starts, up to rounding", "statement": "On IEEE doubles, the function kmeansPP and the program kmeanspp never fail or overflow: start i samples its centres by k-means++ up to rounding, with the engine where the start before left it; its energy is the sum over the rows of the distance to the nearest of these centres up to a relative error of (n+2N+6) 2^-52; the reported start is the first one of the lowest computed energy, so no other start is better by more than these errors; energy, centres and assignments are that start's, every row is with a centre that is nearest up to rounding, and the sizes are exactly true. An unknown metric throws and a single cluster fails an assertion.", "quantifier": "every arithmetic that rounds to a nearest double, every matrix of doubles of at most 2^400, number of clusters, columns, starts and threads, interleaving of the workers in every pass of every start, and draws of the engine", "why_tests_cant": "The reported start depends on comparing sums of rounded distances; which start wins, and whether a sum overflows, depends on all rows and draws at once.", "anchors": ["binding/kmeanspp.hpp: kmeansPP", "libman/kmeans_task_coordinator.cpp: kmeanspp_init, compute_cluster_energy, reinit, tally_assignment_counts, run", "exec/kmeanspp.cpp: main"]}
