# Formal model of knor in Lean 4 — design

## Trusted base

* Lean 4.33.0's kernel; Mathlib as installed.  No own axioms.  Every property
  theorem depends at most on `propext`, `Classical.choice`, `Quot.sound`
  (checked with `#print axioms`; see the end of this file).
* The hand translation of the C++ text into Lean definitions.  Every model
  definition cites file and lines; simplifications are stated beside it.

## Modelling conventions

* **Scalars.** The models are written over types `R` (coordinates) and `D`
  (distances) with bare operations (`Add R`, `LT D`, …) about which nothing is
  assumed, so they can be instantiated with IEEE arithmetic.  Each theorem
  states which laws it needs: theorems about means, costs and agreement between
  variants assume a (linearly ordered) field, i.e. exact arithmetic; theorems
  about assignments need only a linear order of the distances, which covers
  NaN-free doubles; C77 (reproducibility) assumes nothing; C78 (rounding) assumes
  the standard model of rounded operations.  `DBL_MAX` is a parameter `big`.
* **Vectors.** A row-major buffer `p[i*ncol + j]` is a function of `(i, j)`.
* **Faults.** Functions that can fail return `Except Fault _`, where a failed
  `assert`, a C++ `throw` and undefined behaviour (out-of-bounds access, null
  dereference) are different values.
* **Parallelism.** Workers own disjoint rows; a parallel phase is a small-step
  system in which a schedule (any list of worker ids) picks who processes its
  next row.  Theorems quantify over all complete schedules.  The wake/sleep
  protocol is a separate transition system.
* **Randomness.** Every generator is an arbitrary stream (function on Nat).
* **MPI.** All-reduce is a sum over the processes' contributions, taken in rank
  order (the order matters only for C77; MPI recommends but does not require
  that it is the same in repeated calls).
* **OpenMP.** `parallel for` gives rows to threads arbitrarily; a `reduction` is
  combined in thread order.

## Not modelled

* NUMA placement, printing, timing, memory allocation failure, memory-model
  effects below the granularity of one row, the command-line parsers, R and
  Python bindings other than `binding/kmeanspp.hpp`.
* `libsem` contains only a Makefile and an empty FlashX directory: there is no
  semi-external code to model.
* File handling (Model/Io.lean): the default build with assertions; opening a
  file is assumed to succeed; the contents of a vector after a failed stream read
  and the directory that `cluster_t::write` makes by calling Python are not
  modelled.
* x-means and g-means: in the run theorems (C71-C73) the decision is either an
  arbitrary function or computed by the modelled criterion (Model/Score.lean) from
  arbitrary distance arrays; the distances and projections that the workers record
  for it are modelled in Model/Project.lean, where the iterations are run a second
  time with the array that they fill.  gmm is unfinished code and not modelled.
* Task threads: work stealing is compiled out (`#if 0`), so a thread runs its own
  queue only; the model has no stealing.

## Observations that are not properties

* The `for` loop of hierarchical clustering always does `max_iters` iterations
  per round (there is no early exit).
* `hclust_coordinator::create` and x-/g-means have the default initialisation
  "kmeanspp", which `run_hinit` rejects by throwing; the medoid coordinator's
  default "random" is rejected by its `run_init`, as is a list of centres.
* `medoids_changed` is never reset to false.
* Scaled k-means overwrites the caller's data in place.
* The OpenMP variant accepts only "eucl" and "cos" and rejects k = 1.
* Fuzzy c-means advertises a fuzziness of [1, inf), but 1 makes the exponent
  infinite; rows that coincide with a centre get weight 2.2e-16 for it.

## Plan per property

- **C01 Thread row blocks partition the data set** — Model get_rid_len_tup/ctor clamp over Nat; prove by div/mod arithmetic that the concatenated blocks equal List.range nrow.
- **C02 Looking up a row by global id returns that row** — Model upper_bound as a scan over the list of block ends; prove the located block and offset give row r. Data pointers are modelled as (thread, local row).
- **C03 The task queue hands out each row exactly once** — State machine (curr, has_task); the drained task list is computed by well-founded recursion; prove concatenation of task ranges = block range, non-emptiness, size bound.
- **C04 MPI processes partition the rows and agree on ownership** — is_local/local_rid over BitVec-64-like arithmetic (Nat mod 2^64); prove unique owner and inverse maps.
- **C05 Converting a global row id that the process does not own raises an error** — Expected to be false: prove a witness of the violation (id one past the block is accepted) and a _partial theorem for all other ids.
- **C06 E-step assigns every row to a nearest centroid** — argmin loop as a fold over cluster ids with Option result; generic over any linear order of distances.
- **C07 Reported number of changed rows is exact** — Small-step model: each worker processes its rows one at a time, arbitrary interleaving; closed form of any complete schedule.
- **C08 Cluster sizes are the assignment histogram and sum to nrow** — Same small-step model + peq/finalize model; counts = histogram.
- **C09 Centroids are the means of their members** — Same; centroids = member mean / zero.
- **C10 Result does not depend on thread count or scheduling** — Refinement: run with arbitrary thread count and schedules = serial reference (Spec).
- **C11 Iteration budget is respected** — Run loop model with fuel-free recursion on the remaining iteration count.
- **C12 Convergence with no changes is a Lloyd fixed point** — From C06/C09/C10 and the loop exit condition.
- **C13 Within-cluster sum of squares never increases** — Sum of squares: assignment step decreases by argmin; mean step by the parallel-axis identity. Over the reals/any ordered field.
- **C14 Unlimited k-means terminates** — Lexicographic potential (SSE, sum of ids) on the finite set of assignments.
- **C15 Finalising and un-finalising cluster sums round-trips** — Algebra on the Clusters structure.
- **C16 Merging thread-local cluster sums is order independent** — List.Perm of merges.
- **C17 Incremental membership updates equal a batch recomputation** — Induction over operation histories against a multiset-style specification.
- **C18 The centroid distance table stores one value per unordered pair** — Triangular table as list of lists with explicit bounds checks (assert / out-of-bounds outcomes).
- **C19 Cluster separation values are half the distance to the closest other centroid** — Fold invariants over the pair loop.
- **C20 Pruned E-step is exact when its upper bounds are valid** — Loop invariant over the inner cluster loop; abstract metric with triangle inequality.
- **C21 Distributed pruned k-means gives exact Lloyd iterations** — Induction over iterations of the distributed pruned run model.
- **C22 Shared-memory pruned k-means gives exact Lloyd iterations** — False in the code: machine-checked concrete counterexample on the run model; _partial theorem under the hypothesis that the first-iteration bound is valid.
- **C23 Pruning is sound for every supported metric** — False: concrete counterexample for squared Euclidean / taxicab tables; Euclidean case is C20.
- **C24 Pruned M-step equals full recomputation** — Invariant sums = sums over current members, preserved by swap_membership deltas.
- **C25 Pruned result does not depend on thread count or scheduling** — Small-step schedule independence as C07 for the pruned worker.
- **C26 Distributed k-means equals single-process k-means** — Process-level sum of thread-level sums = global sum; reuse C10's reference.
- **C27 Forgy initialisation picks data rows** — Oracle stream as an arbitrary function; membership proof.
- **C28 Random-partition initialisation yields means of a partition** — Oracle stream; histogram and mean as C08/C09.
- **C29 k-means++ keeps exact nearest-chosen-centre distances** — Invariant of the selection loop.
- **C30 k-means++ can select every row with positive weight** — False: witness where a positive-weight row is unreachable for every draw.
- **C31 Distributed random initialisation reproduces the serial stream** — Streams as functions on Nat; skip/take arithmetic.
- **C32 Mini-batch centroids stay in the convex hull** — Convexity of scale_centroid folds with rates 1/v.
- **C33 Mini-batch final assignment is nearest-centroid** — Reuse of argmin lemma with dist reset to DBL_MAX.
- **C34 A phase completes on all threads before the coordinator continues** — Transition system for coordinator and n workers; inductive invariant on the pending counter.
- **C35 The coordinator never misses the completion signal** — False: reachable deadlock state exhibited (lost wake-up).
- **C36 Distance functions satisfy the metric facts the algorithms rely on** — Real-number proofs over Fin n -> R using Mathlib's inner-product machinery.
- **C37 OpenMP k-means honours max_iters** — False: the loop runs while iter < MAX_ITERS (C37_violation; budget 1 does nothing). _partial: a budget of M+1 gives M Lloyd iterations. Model of libauto/kmeans.cpp with rows given to threads arbitrarily.
- **C38 Scaling (skmeans) maps data into [0,1]** — Exact arithmetic; false for all-negative and constant columns (witnesses; NaN modelled) and for all data with no positive entry; _partial theorem otherwise, and the run uses the scaled rows.
- **C39 Medoids are data rows and energy never increases** — Whole-run model of k-medoids (E-step and medoid step under every interleaving, merge, install, membership lists); invariant over reachable states; total energy monotone.
- **C40 Fuzzy c-means memberships are a probability distribution** — Whole-run model of fuzzy c-means; positive weights normalised; centres weighted means, hence convex combinations.
- **C41 A row at a fuzzy centre belongs mostly to that centre** — False: witness; the dist <= 0 branch assigns the smallest weight.
- **C42 Hierarchical cluster ids are unique while alive** — State machine over histories; freshness invariant.
- **C43 Compaction of hierarchical results is a bijection** — Model of remap as fold; injectivity and range.
- **C44 Compacted centroids belong to their clusters** — False: witness with an empty live cluster; _partial theorem when all centroid keys are assigned.
- **C45 Hierarchical splitting conserves rows** — Whole-run model of hclust (E-step under every interleaving, update, split, removal, id generator, flags, result object); invariant over rounds; total correctness for min_clust_size >= 2 and max_iters >= 1, witness for max_iters = 0.
- **C46 Rejecting a split restores the parent cluster** — Models of both revert loops; the restored state characterised for every consistent state and any set of rejected partitions, then for the states that runs reach (x-means: all rounds; g-means: first 3K-6).
- **C47 The growable map behaves as a finite map** — Refinement to Option-valued functions; empty-map lookup is UB (witness).
- **C48 The flag vector grows to hold every written flag** — False at idx = size (witness) + _partial theorem.
- **C49 Matrix determinant is correct** — Model recursion and prove equal to Matrix.det (Laplace expansion along first row).
- **C50 Matrix inverse is correct** — False for n >= 2 (sign always +1): witness, plus the exact characterisation of the inputs on which it is right; _partial.
- **C51 Binary matrix files round-trip** — Byte-level file model (Model/Io): values are 8-byte codes, a reader is a position in a byte list, so seek, short reads and per-worker blocks are arithmetic on the list; proved by an index-to-slice lemma.
- **C52 k-means++ multi-start returns the best start** — Fold model; UB in re-initialisation recorded separately.
- **C53 Distributed k-means++ chooses the serial centres** — Simulation: the ranks' states are slices of a virtual serial state before and after every pass.
- **C54 Shutdown never uses destroyed synchronisation objects** — False: two reachable misuse states exhibited; _partial for the time before the destructor.
- **C55 Standardising a vector yields mean 0 and unit variance** — False: an int accumulator truncates the running sum. _partial when every partial sum is an integer; witness otherwise.
- **C56 Hierarchical clustering terminates without memory faults** — Counting invariant over rounds (live ids, reuse of id 0, capacity 4K-1); termination in 1.5 kmax rounds; null dereference witness for min_clust_size = 1.
- **C57 Hierarchical clustering reports at most kmax clusters** — False (kmax = 2 gives 4 clusters): witness; proved bound kmax + kmax/2 + 1.
- **C58 Hierarchical results report cluster means** — Means invariant through the result object when no recorded cluster is empty; witness with equal rows.
- **C59 Hierarchical iterations move rows to the nearer side only** — One-iteration theorem from every reachable state, every interleaving.
- **C60 K-medoids uses the requested metric** — False: workers always use the Euclidean default (witness for every thread count and interleaving); _partial for Euclidean.
- **C61 K-medoids terminates at a stable clustering** — Rank argument: the total energy over the finitely many medoid tuples strictly decreases while medoids change.
- **C62 The OpenMP variant computes the same clustering as the pthread variant** — Both engines reduced to the same closed form of an iteration; equality of loops by induction; distance table shown to depend on centroids only. Pruned + k-means++ is false (witness).
- **C63 Fuzzy c-means reports the nearest centre of each row** — Monotonicity of weight, power and arg-max; tally.  Thread independence by the closed form of an iteration.
- **C64 Fuzzy c-means never increases its objective** — E-step optimal by Bernoulli-type inequality on each row, M-step optimal by the variance identity; induction over a trace.  False when a row lies on a centre (witness).
- **C65 Fuzzy c-means stops when told** — Induction on the loop's fuel, building the trace of states.
- **C66 Mini-batch k-means stops when told and touches only the sample** — Trace of the loop by induction on fuel; parallel phases by Par.run_det; the sampled rows by the scan lemmas.
- **C67 Dense matrix and vector arithmetic is the textbook one** — Model with bounds-checked buffer reads and writes; a row-major storage function as the only spec; loops over index pairs reduced to Finset sums.
- **C68 Non-conforming matrix operands are reported** — Same model; rejection by case analysis, violations by concrete matrices.
- **C69 argmax finds the largest entry** — Same model; invariant of the running maximum; violation by a negative row.
- **C70 A settled k-medoids run is locally optimal** — Invariants of C39 plus induction on the loop to expose the last iteration; equality of assignments from the change count.
- **C71 X-means ends safely and loses no row** — Round invariant of C45 with the decision left open: potential argument on live ids (Start, Bd) and a bound on the ids (Low); total correctness.
- **C72 The centroid recorded for a rejected split is the cluster's mean** — Sums over schedules of the shared running mean; equality for numbers used for the first time, witnesses for reuse.
- **C73 G-means stays inside its buffers** — Same invariant with a larger capacity for the first 3K-6 rounds; witness of an out-of-range read.
- **C74 A written result file holds the result** — Character-level model of the writer; injectivity proved by taking the file apart at separators; witnesses for digits and for the vector of sizes.
- **C75 Results and vectors compare equal exactly when they are equal** — std::equal as a list function with undefined reads; complete characterisation by prefixes.
- **C76 File readers deliver the matrix** — Stream and line models; induction on rows; witnesses for ragged lines and for seeking after the end.
- **C77 Repeated runs give the same answer in machine arithmetic** — Every worker does what it would do alone (invariant over schedules, any row body); lifted through each run; rows of different workers are disjoint; witness with a 3-bit arithmetic for different thread counts.
- **C78 Centroids are accurate in floating point** — Closed form of an iteration for any arithmetic (left-to-right sums per worker, then over workers); induction on the number of rounded additions; the standard model is a structure of Spec/Rounding.lean, shown satisfiable by a 3-bit arithmetic.
- **C79 X-means keeps a split by the Bayesian information criterion** — bic over the reals against the published criterion; scale argument for the violation; the distances from the invariant of a round.
- **C80 The normality statistic is that of Anderson and Darling** — statistic (sort, mean, deviation, sum) against the textbook formula; midpoint rule for the entropy integral for non-negativity.
- **C81 G-means takes back the splits whose projections look normal** — Decision function composed with the projections (H_split_step) and the statistic; witness with bounds on the normal distribution function; simulation of runs that compute their decisions by runs with given decisions.
- **C82 A k-means call does what its options say** — Composition: names, constructor, loading (C51), initialisation (C27-C29 with the exact choice of k-means++), Lloyd run (C10, C11) into one function; the theorem composes theirs; boundedness of all centroids over the reals discharges the hypotheses about the run.
- **C83 A Gaussian mixture fit returns responsibilities and estimated parameters** — The E step as interleaved passes over the shared matrix, numbers of any type with the IEEE tables for special values (Spec/Ieee.lean, realised by the extended reals of Lemmas/Ext.lean); induction over schedules with the class of every entry.
- **C84 A pruned k-means call returns what the unpruned one returns** — The constructor, initialisation, pruned loop and final count composed as in C82; the loop by the invariants of C20-C22; uniqueness of the start and of a run without ties gives the agreement with the unpruned call.
- **C85 A distributed k-means job returns Lloyd's result for the whole matrix** — Constructor, loading of the blocks, initialisation on all ranks, iterations and gathering composed; the start from C27, C28, C29 and C53, the loop from C26, the data from C51; uniqueness of the start gives independence of the number of processes and the agreement with C82.
- **C86 A pruned distributed k-means job returns what the unpruned one returns** — The pruned constructor and initialisation of every process composed with the pruned loop of C26/C33 and the gathering; runPruned_partition for any metric, exactness for a metric with the triangle inequality; three concrete runs show where it fails.
- **C87 A scaled k-means call clusters the rows scaled to the unit interval** — The two scaling phases (C38) composed with construction, reading, initialisation and the loop of C80; the program's checks and the reading of centres are modelled once for all programs.
- **C88 A fuzzy c-means call returns what fuzzy c-means gives from the promised centres** — The constructor, reading (C77) and Forgy (C40) composed with the loop of C40, C63 and C65 into one specification FuzzyResult; the program with program_ok.
- **C89 A k-medoids call returns what k-medoids gives from the promised medoids** — The constructor, reading and Forgy composed with the phases of C39 and the loop; induction over the iterations gives the trace of MedoidResult.
- **C90 A hierarchical clustering call accounts for every row and returns the means of its clusters** — Reading and options composed with the rounds of C45 and the compaction of C43 and C58; the assertions of verify_consistency are shown to compare the lengths of the two returned lists.
- **C91 x-means and g-means calls account for every row** — As C90, with the runs of C71 and C73 in place of C45.
- **C92 A call of the OpenMP variant returns what Lloyd's algorithm promises** — Option handling and reading composed with the equivalence of the OpenMP and pthread engines (C62) and the theorems about those engines (C10, C11, C84); the initialisations of C27, C28, C29 are carried over.
- **C93 Hierarchical clustering returns clusters that arise by bisecting with two-means** — Spec/Bisect.lean defines two-means and bisection on sets of rows, without the code. An invariant follows every open split through the iterations of a round (its rows, sides and number of changes) and every closed cluster through the rounds; initSplits establishes it for the next round from the two rows that the scan finds first.
- **C94 Hierarchical clustering does not stop before the permitted number of clusters while a cluster can be split** — The invariant of the loop over the partitions is extended by the reason for which a side is recorded; the counter is compared with the number of identifiers in use, and the number of clusters never decreases from round to round.
- **C95 What a whole mini-batch call delivers** — The mini-batch run of C32, C33 and C66 is put behind the model of options, file and initialisation of C84. The workers' lists of sampled rows, one after the other, are the sampled rows in order; the scans take the lowest-numbered nearest centroid.
- **C96 What a whole multi-start call delivers** — C52 is put behind the model of options, file and coordinator of C84; the engine is threaded through the starts. That starts, energies and the choice of the first minimum are determined gives the independence of threads and schedule.
- **C97 k-means on doubles is Lloyd's algorithm up to rounding** — Spec/Double.lean states IEEE 754 (results are nearest doubles); Lemmas/Double.lean derives the standard model from it; Lemmas/NearLloyd.lean bounds the error of each distance, shows that the scan over clusters depends on values only, that centroids stay in a box, and follows the loop by induction.
- **C98 On separated data rounding does not change the clustering** — Spec/Separated.lean states the separation; Lemmas/Separated.lean shows by induction over the iterations that a near-Lloyd run has the exact assignments and centroids that are rounded means of the same members.
- **C99 The programs do what their command lines say** — Spec/Cli.lean defines the forms of words and what they mean without the parser; Lemmas/Cli.lean turns a command line into a list of events and shows by induction over it that the parser keeps an invariant between events so far and variables; numerals are handled by strong induction over toDigits.
- **C100 The distributed program does what its command line says** — Model/KnordCli.lean has getopt, the loop over the options and main; Spec/KnordCli.lean defines the forms of words and what they mean without getopt; by induction over the items getopt returns exactly the options they give, and by induction over these the loop leaves in every variable the value of its last option; C85 and C86 do the rest.
- **C101 A distributed job on doubles is Lloyd's algorithm up to rounding, in whatever order MPI adds** — Model/Distr.lean is parameterised by how a reduction adds; reduction trees (SumTree) give all orders. near_tree bounds the error of any tree by its number of leaves; the trace of the job meets NearLloydRun as in C97; near_follows of C98 gives the clusters.
- **C102 Pruning does not spoil a distributed job on doubles: errors grow at most linearly, and on separated data nothing changes** — The scan of a row (Lemmas/PruneNear) is followed with an invariant: true distance to the own centroid <= stored bound + movement + E, where E grows by a constant per iteration; skipping is then right up to 2E. Sums: one delta reduction adds at most one rounding of every row (Lemmas/PruneSum); un-finalize and finalize lose 13 units (finz_near, unfin_near); count times error of a centroid grows by kappa per iteration (mean_next). loop_inv composes the iterations.
- **C103 The container of cluster sums keeps every cluster's numbers apart, whatever calls are made** — Model/FlatClusters is the code with one list of numbers, 32-bit index arithmetic and undefined behaviour outside; Spec/Cells is one cell per cluster. Lemmas/FlatClusters shows for every call that it maps the object storing cells f to the object storing the changed cells (positions c*n+j are a bijection with pairs); histories by induction.
- **C104 The table of pairwise distances is the symmetric distance matrix of the rows, whatever the threads do** — Model/PairTable on top of Model/DistMatrix: a team in which each thread has the whole list of iterations to do and the scheduler picks who runs the next one. Invariant: for each thread, every pair is still on its list or its cell holds the distance. Specification of the metrics in Spec/PairTable.
- **C105 The statistics objects show what was reported to them** — Model/PruneStats with wrapping counters, std::map as a sorted list; Spec/PruneStats gives histories by iterations and the amounts reported. Induction over reports and iterations; the map by an invariant (sorted, exactly the keys that occurred with their counts).
- **C106 Members, sizes and means of the clusters of the hierarchical coordinator** — Model/HierHelpers: the two walks as recursions over positions, reads outside as undefined behaviour, the map of pointers as the vmap of Model/VMap with null entries. Induction over the walks.
- **C107 Comparing results and filling a result object** — Model/Compare: the loop over two lists, past the end as undefined behaviour, over any arithmetic; exact arithmetic for the positive theorem, an arithmetic with NaN and the integers for the violations.
- **C108 Sizes of the cluster tree** — Model/TreeSize: log2 a parameter, conversions of real numbers to unsigned with undefined cases, the loop of get_max_hnodes with wrapping counters. The gap between log2 k and the nearest integer is bounded below by 2^-32 with a concavity estimate.
- **C109 Score of a clustering and projection to the unit sphere** — Model/DataUtil: the reduction as private sums combined in any order; the projection as a team of threads that interleave single memory accesses. Spec/DataUtil: rows of length one, the score. Invariant over the accesses that are left to do.
- **C110 A whole k-means call on doubles** — Spec/NearStart: NearMinTo, NearSampled, NearStartsAt, NearDelivers. Lemmas/InitNear, SeedNear, DoubleDriver: error bounds through the passes and the selection loop, then run_near of C97.
- **C111 A whole call of the OpenMP variant on doubles** — Spec/NearOmp: NearLloydOrder, NearDeliversOmp. Lemmas/OmpNear: error bounds of a merge with any owner function; Lemmas/SeedNear generalised to any distribution of rows.
- **C112 A whole distributed job on doubles** — Model/JobOrder: the job with an arbitrary order for each reduction. Spec/NearJobStart: NearDeliversJob. Lemmas/JobNear, Lemmas/JobSeed: error bounds through the initialisation of the job.
- **C113 A whole pruned distributed job on doubles** — Model/JobOrder: the pruned job with an arbitrary order for each reduction. Spec/NearJobPruned: NearDeliversJobPruned. Lemmas/JobSeed tracks that the bound k-means++ leaves in a row is a distance to its own centroid; Lemmas/JobPrune joins the ranks into one state, from which the invariant of C102 runs.
- **C114 A whole pruned k-means call in one process on doubles** — Spec/NearPruned: NearPartition, NearPrunedResult, NearDeliversPruned. Lemmas/PruneCall and Lemmas/PruneCallRun put the invariant of C102 (bounds within multiples of one rounding error) on the single-process iteration, whose drift table starts from zero; Lemmas/SeedNear shows that the bound k-means++ leaves in a row is a computed distance to its own centroid.
- **C115 A whole mini-batch call on doubles** — Spec/NearMiniBatch: NearMbStep, NearDeliversMiniBatch. Lemmas/MiniBatchNear: rounding of one update and of a list of updates; Lemmas/MiniBatchNearRun: the norm, one iteration, the loop by induction, the final pass; the initialisation is that of C114.
- **C116 The program gmm fits a mixture and leaves the result in the directory named** — Model/GmmDriver composes Driver.load, Gmm.runInit and Gmm.softRun, and Cli.mainWith; the start is described by GmmStart, proved by induction over the draws.
- **C117 A whole scaled k-means call on doubles scales the columns and clusters the scaled rows, up to rounding** — Model/ScaledDriver and Model/Skmeans as they are, on doubles; the bounds are followed through both phases by the values, the quotient of the two rounded differences is bounded once, and the rest is C110's argument on the scaled rows.
- **C118 A whole k-medoids call on doubles returns what k-medoids gives, up to rounding** — Model/MedoidDriver and Model/Medoid as they are, on doubles; the two phases are followed for any ordered type of energies, then a sum of computed distances is compared with the exact one: the rounding of at most N+1 additions, whatever the split.
- **C119 A whole fuzzy c-means call on doubles returns what fuzzy c-means gives, up to rounding** — Model/FuzzyDriver and Model/Fcm as they are, on doubles; both phases are followed for any arithmetic, then the computed weights are compared with the exact ones through powers, and a row far from all centres keeps the weights of every cluster away from zero.
- **C120 A whole multi-start k-means++ call on doubles returns the best of its starts, up to rounding** — Model/MultiStart and Model/SeedDriver as they are, on doubles; the loop over the starts is followed for any arithmetic whose numbers have values, each start is the k-means++ on doubles of C110, and the energy is a rounded sum of smallest distances.
